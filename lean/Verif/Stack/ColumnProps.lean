import Verif.Stack.ColumnLemmas
import Verif.Stack.ColumnSpec
/-! # What is in a stacked column -/
namespace Riptide.Stack
open Riptide.Sds Riptide.Convert

theorem compatType_false_num {k b : Block} (hk : Num k) (hb : Num b) : compatType false k b = (k, true, false, decide (k.type ≠ b.type)) := by
  have hd := num_dtype hk
  have h1 := num_lt _ hk.type
  unfold compatType
  dsimp only
  by_cases he : k.type = b.type
  · have hi : k.item = b.item := by rw [hk.item, hb.item, he]
    rw [if_neg (by omega), if_neg hd]
    simp [he, hi]
  · rw [if_pos he]
    have hdec : decide (k.type ≠ b.type) = true := by simp [he]
    rw [hdec]
    by_cases hw : which k.type = which b.type
    · rw [if_pos hw]
      split
      · rfl
      · rw [if_neg (by omega)]
    · rw [if_neg hw]
      rcases kinds_table _ hk.type _ hb.type he hw with ⟨h1, _⟩ | ⟨h1, h2, _⟩
      · rw [if_pos h1]; rfl
      · rw [if_neg h1, if_pos h2]; rfl

theorem compat_flags_num {k b : Block} (hk : Num k) (hb : Num b) (hl : k.dims.length = b.dims.length) (ht : k.dims.drop 1 = b.dims.drop 1) :
    (compat false k b).2.ok = true ∧ (compat false k b).2.strings = false ∧ (compat false k b).2.convert = decide (k.type ≠ b.type) := by
  unfold compat
  rw [compatType_false_num hk hb]
  dsimp only
  refine ⟨?_, rfl, rfl⟩
  unfold compatShape
  rw [if_neg (by omega)]
  dsimp only
  rw [ht]
  split
  · split
    · rw [if_neg (by simp)]; simp
    · simp
  · rfl

theorem mem_blocks {l : List Part} {b : Block} : b ∈ blocks l ↔ ∃ p ∈ l, p.block = some b := by
  unfold blocks
  rw [List.mem_filterMap]

theorem item_size : ∀ t ∈ numTypes, t ≠ 13 → ∃ a, itemOf t = some a ∧ a.size = size t := by
  intro t ht h
  revert t
  decide

/-- Conversions in a column have a result, but for strange `bool`. -/
theorem conv_total {s d : Nat} {a b : Item} (ha : itemOf s = some a) (hb : itemOf d = some b) (h : (inside s d || lossy s d) = true) (hne : s ≠ d)
    {n : Nat} (h0 : s = 0 → n ≤ 1) : (∃ r, convItem a b n = some r) ∧ 0 < a.size ∧ a.size ≤ b.size ∧ b ≠ .bool ∧ s ≠ 18 := by
  have bi : ∀ t : IT, n ≤ 1 → ∃ r, convItem .bool (.int t) n = some r := by
    intro t hn
    unfold convItem
    dsimp only
    rw [if_neg (by omega)]
    split <;> exact ⟨_, rfl⟩
  have bf : ∀ t : FT, n ≤ 1 → ∃ r, convItem .bool (.float t) n = some r := by
    intro t hn
    unfold convItem
    dsimp only
    rw [if_neg (by omega)]
    split <;> exact ⟨_, rfl⟩
  have ii : ∀ s t : IT, ∃ r, convItem (.int s) (.int t) n = some r := by
    intro s t
    unfold convItem
    dsimp only
    split <;> exact ⟨_, rfl⟩
  have fi : ∀ (s : IT) (t : FT), ∃ r, convItem (.int s) (.float t) n = some r := by
    intro s t
    unfold convItem
    dsimp only
    split <;> exact ⟨_, rfl⟩
  have ff : ∀ (s : FT) (t : FT), ∃ r, convItem (.float s) (.float t) n = some r := by
    intro s t
    unfold convItem
    dsimp only
    split <;> exact ⟨_, rfl⟩
  unfold itemOf at ha hb
  split at ha <;> first | cases ha | skip
  all_goals (split at hb <;> first | exact absurd rfl hne | cases hb | skip)
  all_goals first
    | exact absurd h (by decide)
    | exact ⟨bi _ (h0 rfl), by decide, by decide, nofun, by decide⟩
    | exact ⟨bf _ (h0 rfl), by decide, by decide, nofun, by decide⟩
    | exact ⟨ii _ _, by decide, by decide, nofun, by decide⟩
    | exact ⟨fi _ _, by decide, by decide, nofun, by decide⟩
    | exact ⟨ff _ _, by decide, by decide, nofun, by decide⟩

/-- What a packet of numbers writes. -/
def numBytes (k : Block) (x : Packet) : List Nat :=
  match x.part.block with
  | none => (gapFill k x.gap).getD []
  | some b =>
    if x.part.own = 0 ∨ rowSize b = 0 then []
    else if k.type = b.type then x.part.data
    else
      match itemOf b.type, itemOf k.type with
      | some a, some c => converted a c (x.part.own * cols b) x.part.data
      | _, _ => []

theorem gapFill_length {k : Block} {rows : Nat} {l : List Nat} (h : gapFill k rows = some l) : l.length = rowSize k * rows := by
  unfold gapFill at h
  dsimp only at h
  split at h
  · rename_i hi
    split at h
    · cases h
      rw [List.length_flatten, List.map_replicate, le_length, List.sum_replicate_nat]
      have : k.item ∣ rowSize k * rows := ⟨cols k * rows, by unfold rowSize; rw [Nat.mul_assoc]⟩
      exact Nat.div_mul_cancel this
    · cases h
  · cases h
    exact List.length_replicate

theorem gapFill_some {k : Block} {rows : Nat} (h : cols k * rows < 2 ^ 31) : ∃ l, gapFill k rows = some l := by
  unfold gapFill
  dsimp only
  split
  · rename_i hi
    have : rowSize k * rows / k.item = cols k * rows := by
      unfold rowSize
      rw [Nat.mul_assoc]
      exact Nat.mul_div_cancel_left _ (by omega)
    rw [this, if_pos h]
    exact ⟨_, rfl⟩
  · exact ⟨_, rfl⟩

theorem num_writes {k : Block} {x : Packet} (hk : Num k) (h13 : k.type ≠ 13) (hgap : x.part.block = none → cols k * x.gap < 2 ^ 31)
    (hrows : x.part.rows ≤ x.gap)
    (hb : ∀ b, x.part.block = some b → Num b ∧ b.type ≠ 13 ∧ k.dims.length = b.dims.length ∧ k.dims.drop 1 = b.dims.drop 1 ∧
      (inside b.type k.type || lossy b.type k.type) = true ∧ x.part.data.length = x.part.own * rowSize b ∧ (b.type = 0 → ∀ y ∈ x.part.data, y ≤ 1)) :
    Writes k x (numBytes k x) ∧ (numBytes k x).length ≤ rowSize k * x.gap ∧
      (x.part.block ≠ none → (numBytes k x).length ≤ rowSize k * x.part.rows) := by
  suffices hsuf : Writes k x (numBytes k x) ∧ (x.part.block = none → (numBytes k x).length ≤ rowSize k * x.gap) ∧
      (x.part.block ≠ none → (numBytes k x).length ≤ rowSize k * x.part.rows) by
    obtain ⟨h1, h2, h3⟩ := hsuf
    refine ⟨h1, ?_, h3⟩
    by_cases hx : x.part.block = none
    · exact h2 hx
    · exact Nat.le_trans (h3 hx) (Nat.mul_le_mul_left _ hrows)
  cases hbk : x.part.block with
  | none =>
    obtain ⟨l, hl⟩ := gapFill_some (hgap hbk)
    have e : numBytes k x = l := by
      unfold numBytes
      rw [hbk]
      dsimp only
      rw [hl]
      rfl
    rw [e]
    exact ⟨gap_writes hbk hl, fun _ => Nat.le_of_eq (gapFill_length hl), fun h => absurd rfl h⟩
  | some b =>
    obtain ⟨b1, b2, b3, b4, b5, b6, b7⟩ := hb b hbk
    obtain ⟨f1, f2, f3⟩ := compat_flags_num hk b1 b3 b4
    have hcols : cols b = cols k := by unfold cols; rw [b4]
    by_cases h0 : x.part.own = 0 ∨ rowSize b = 0
    · have e : numBytes k x = [] := by
        unfold numBytes
        rw [hbk]
        dsimp only
        rw [if_pos h0]
      rw [e]
      exact ⟨empty_writes hbk f1 h0, nofun, fun _ => Nat.zero_le _⟩
    · have h1 : x.part.own ≠ 0 := fun h => h0 (.inl h)
      have h2 : rowSize b ≠ 0 := fun h => h0 (.inr h)
      have hown : x.part.own ≤ x.part.rows := by unfold Part.rows; rw [if_neg h1]; exact Nat.le_refl _
      by_cases hte : k.type = b.type
      · have e : numBytes k x = x.part.data := by
          unfold numBytes
          rw [hbk]
          dsimp only
          rw [if_neg h0, if_pos hte]
        rw [e]
        refine ⟨same_writes hbk f1 f2 (by rw [f3, hte]; simp) h1 h2, nofun, fun _ => ?_⟩
        have hrs : rowSize b = rowSize k := by unfold rowSize; rw [hcols, b1.item, hk.item, hte]
        rw [b6, hrs, Nat.mul_comm]
        exact Nat.mul_le_mul_left _ hown
      · obtain ⟨a, a1, a2⟩ := item_size _ b1.type b2
        obtain ⟨c, c1, c2⟩ := item_size _ hk.type h13
        have hne : b.type ≠ k.type := fun h => hte h.symm
        have tot : ∀ n, (b.type = 0 → n ≤ 1) → _ := fun n => conv_total a1 c1 b5 hne (n := n)
        obtain ⟨_, t1, t2, t3, t4⟩ := tot 0 (fun _ => by omega)
        have hai : b.item = a.size := by rw [b1.item, a2]
        have hci : k.item = c.size := by rw [hk.item, c2]
        have e : numBytes k x = converted a c (x.part.own * cols b) x.part.data := by
          unfold numBytes
          rw [hbk]
          dsimp only
          rw [if_neg h0, if_neg hte, a1, c1]
        have hdl : x.part.data.length = x.part.own * cols b * a.size := by
          rw [b6]; unfold rowSize; rw [hai, Nat.mul_comm a.size, Nat.mul_assoc]
        rw [e]
        refine ⟨?_, nofun, fun _ => ?_⟩
        · have hcv : (compat false k b).2.convert = true := by rw [f3]; simp [hte]
          refine change_writes hbk f1 f2 hcv h1 h2 ?_ ?_
          · rw [converted_length, hdl]
            exact Nat.mul_le_mul_left _ t2
          · intro t ht he
            rw [converted_length] at ht
            refine ⟨t, by simp, ?_⟩
            rw [if_pos rfl, b6, Nat.mul_div_cancel _ (by omega), ← b6, hdl]
            have hit : ∀ i, i < x.part.own * cols b → item a.size t i = item a.size x.part.data i := by
              intro i hi
              rw [← he]
              refine (item_take ?_).symm
              rw [hdl]
              exact Nat.mul_le_mul_right _ (by omega)
            rw [convert_bytes a1 c1 t4 t1 t2 t3 ht ?_, converted_length, converted_congr hit]
            intro i hi
            refine (tot _ ?_).1
            intro hz
            rw [hit i hi]
            have : a = .bool := by rw [hz] at a1; cases a1; rfl
            subst this
            have hi' : i < x.part.data.length := by rw [hdl]; simpa [Item.size] using hi
            show unle ((x.part.data.drop (i * 1)).take 1) ≤ 1
            rw [Nat.mul_one, List.drop_eq_getElem_cons hi', List.take_succ_cons, List.take_zero]
            have := b7 hz _ (List.getElem_mem hi')
            show x.part.data[i] + 256 * 0 ≤ 1
            omega
        · rw [converted_length, hcols]
          unfold rowSize
          rw [hci, Nat.mul_right_comm, Nat.mul_comm (x.part.own * c.size), Nat.mul_comm x.part.own, ← Nat.mul_assoc, Nat.mul_comm (cols k)]
          exact Nat.mul_le_mul_left _ hown

theorem item_at {m w : List Nat} {o s j : Nat} (h : ∀ i, i < w.length → m[o * s + i]? = w[i]?) (hj : (j + 1) * s ≤ w.length) :
    item s m (o + j) = item s w j := by
  unfold item
  rw [Nat.succ_mul] at hj
  congr 1
  apply List.ext_getElem?
  intro i
  rw [List.getElem?_take, List.getElem?_take]
  split
  · rw [List.getElem?_drop, List.getElem?_drop, Nat.add_mul, Nat.add_assoc]
    exact h (j * s + i) (by omega)
  · rfl

theorem replicate_item {s n j : Nat} {l : List Nat} (hl : l.length = s) (hj : j < n) : item s (List.replicate n l).flatten j = unle l := by
  have e : (List.replicate n l).flatten = (List.range n).flatMap (fun _ => l) ++ [] := by
    rw [List.append_nil]
    simp [List.flatMap, List.map_const']
  show unle (piece s _ j) = _
  rw [e, flatMap_piece (g := fun _ => l) (fun _ _ => hl) [] hj]

theorem closed_join : ∀ k ∈ numTypes, ∀ o ∈ numTypes, k ≠ 13 → o ≠ 13 → join k o ≠ 13 := by decide

theorem fold_closed : ∀ (l : List Nat) (k : Nat), (∀ t ∈ l, t ∈ numTypes ∧ t ≠ 13) → k ∈ numTypes → k ≠ 13 → l.foldl join k ≠ 13
  | [], _, _, _, h => h
  | o :: l, k, hl, hk, h => by
    have ho := hl o (by simp)
    exact fold_closed l _ (fun t ht => hl t (by simp [ht])) (join_mem k hk o ho.1) (closed_join k hk o ho.1 h ho.2)

theorem gap_value {t : Nat} {a : Item} (ha : itemOf t = some a) :
    value a (unle (le a.size (defaultBits t))) = if t = 0 then .num 0 else .invalid := by
  have key : ∀ (i : IT) (k : Nat), 0 < i.bits → 2 ^ i.bits = 256 ^ k → (Item.int i).size = k →
      value (.int i) (unle (le (Item.int i).size (toBits i i.inv))) = .invalid := by
    intro i k h1 h2 h3
    have := toBits_lt i i.inv
    rw [h3, unle_le _ _ (by omega), value_int, ofBits_toBits h1 (IT.inv_inRange i h1), if_pos rfl]
  have keyf : ∀ (f : FT) (k : Nat), Spec.Good f → f.qnan < 256 ^ k → (Item.float f).size = k →
      value (.float f) (unle (le (Item.float f).size f.qnan)) = .invalid := by
    intro f k h1 h2 h3
    rw [h3, unle_le _ _ h2]
    exact qnan_value h1
  unfold itemOf at ha
  split at ha <;> cases ha
  · rfl
  · exact key _ 1 (by decide) (by decide) (by decide)
  · exact key _ 1 (by decide) (by decide) (by decide)
  · exact key _ 2 (by decide) (by decide) (by decide)
  · exact key _ 2 (by decide) (by decide) (by decide)
  · exact key _ 4 (by decide) (by decide) (by decide)
  · exact key _ 4 (by decide) (by decide) (by decide)
  · exact key _ 8 (by decide) (by decide) (by decide)
  · exact key _ 8 (by decide) (by decide) (by decide)
  · exact keyf _ 4 f32_good (by decide) (by decide)
  · exact keyf _ 8 f64_good (by decide) (by decide)

theorem item_widths {t : Nat} {a : Item} (ha : itemOf t = some a) : a.size = 1 ∨ a.size = 2 ∨ a.size = 4 ∨ a.size = 8 := by
  unfold itemOf at ha
  split at ha <;> cases ha <;> decide

/-- **C116, numbers.** Whatever the order in which the packets are done, the column is the columns of the files one after the other: the item in
row `r` of a file has the value it has in the file, the rows of a file which lacks the column are invalid (False for `bool`), and memory which is
reserved is left alone unless the last file lacks the column.  Missing: types whose numbers are not all numbers of the type of the column
(`numbers_lost`) and `bool` in columns of other types (`false_becomes_invalid`) get other values; `long double`; gaps of 2^31 items
(`gap_too_long`); columns without rows in files which have rows (`rows_never_written`); types which are not numbers (`overrun`). -/
theorem numbers_stacked_partial {l : List Part} {tail : List Nat} {n extra : Nat} (h : Stackable l tail n) (hn : ∀ b ∈ blocks l, Num b ∧ b.type ≠ 13)
    (hbool : ∀ p ∈ l, ∀ b, p.block = some b → b.type = 0 → ∀ y ∈ p.data, y ≤ 1)
    (hgap : ∀ p ∈ l, p.block = none → width tail * (p.rows + extra) < 2 ^ 31) :
    ∃ k a, king (blocks l) = some k ∧ itemOf k.type = some a ∧ k.item = a.size ∧ ∀ order, order.Perm (packets extra 0 l) →
      ∀ m : List Nat, m.length = a.size * width tail * totalRows extra l → ∃ m', fillAll k order m = some m' ∧ m'.length = m.length ∧
        (∀ i p, l[i]? = some p → ∀ b c, p.block = some b → itemOf b.type = some c → lossy b.type k.type = false → (b.type = 0 → k.type = 0) →
          ∀ j, j < p.rows * width tail → value a (item a.size m' (before l i * width tail + j)) = value c (item c.size p.data j)) ∧
        (∀ i p, l[i]? = some p → p.block = none → ∀ j, j < (p.rows + if i + 1 = l.length then extra else 0) * width tail →
          value a (item a.size m' (before l i * width tail + j)) = if k.type = 0 then .num 0 else .invalid) ∧
        ((∀ p, l.getLast? = some p → p.block ≠ none) → ∀ i, a.size * width tail * before l l.length ≤ i → m'[i]? = m[i]?) := by
  obtain ⟨k, k1, k2, k3, k4, k5⟩ := king_num h.present (fun b hb => (hn b hb).1) h.shape
  have htypes : ∀ t ∈ (blocks l).map Block.type, t ∈ numTypes ∧ t ≠ 13 := by
    intro t ht
    obtain ⟨b, hb, rfl⟩ := List.mem_map.mp ht
    exact ⟨(hn b hb).1.type, (hn b hb).2⟩
  have k13 : k.type ≠ 13 := by
    cases hl : (blocks l).map Block.type with
    | nil => rw [hl] at k2; cases k2
    | cons t ts =>
      rw [hl] at k2 htypes
      have : k.type = ts.foldl join t := (Option.some.inj k2).symm
      rw [this]
      exact fold_closed ts t (fun u hu => htypes u (by simp [hu])) (htypes t (by simp)).1 (htypes t (by simp)).2
  have hrel := (joinAll_rel (fun t ht => (htypes t ht).1) k2 (fun t k => inside t k || lossy t k) (fun t ht => by simp [inside_refl t ht]) inside_join).2
  obtain ⟨a, a1, a2⟩ := item_size _ k3.type k13
  have hka : k.item = a.size := by rw [k3.item, a2]
  have hck : cols k = width tail := by unfold cols width; rw [k5]
  have hrk : rowSize k = a.size * width tail := by unfold rowSize; rw [hka, hck]
  have ha0 : 0 < a.size := by have := item_widths a1; omega
  refine ⟨k, a, k1, a1, hka, ?_⟩
  intro order hp m hm
  have hw : ∀ x ∈ packets extra 0 l, Writes k x (numBytes k x) ∧ (numBytes k x).length ≤ rowSize k * x.gap ∧
      (x.part.block ≠ none → (numBytes k x).length ≤ rowSize k * x.part.rows) := by
    intro x hx
    obtain ⟨x1, x2, x3, x4, x5⟩ := packets_mem extra l 0 x hx
    refine num_writes k3 k13 ?_ x3 ?_
    · intro hb
      have := hgap x.part x1 hb
      rw [hck]
      exact Nat.lt_of_le_of_lt (Nat.mul_le_mul_left _ x4) this
    · intro b hb
      have hbl : b ∈ blocks l := mem_blocks.mpr ⟨x.part, x1, hb⟩
      refine ⟨(hn b hbl).1, (hn b hbl).2, ?_, ?_, hrel _ (List.mem_map_of_mem hbl), (h.bytes x.part x1 b hb).1, hbool x.part x1 b hb⟩
      · rw [k4, h.shape.len b hbl]
      · rw [k5, h.shape.tail b hbl]
  obtain ⟨m', r1, r2, r3, r4⟩ := fillAll_packets (fun x hx => ⟨(hw x hx).1, (hw x hx).2.1⟩) hp (m := m) (by rw [hm, hrk])
  refine ⟨m', r1, r2, ?_, ?_, ?_⟩
  · intro i p hi b c hb hc hlossy hb0 j hj
    have hpl : p ∈ l := List.mem_of_getElem? hi
    have hbl : b ∈ blocks l := mem_blocks.mpr ⟨p, hpl, hb⟩
    obtain ⟨s1, s2⟩ := r3 i p hi _ rfl
    obtain ⟨d1, d2⟩ := h.bytes p hpl b hb
    have hcb : cols b = width tail := by unfold cols width; rw [h.shape.tail b hbl]
    obtain ⟨c', c1, c2⟩ := item_size _ (hn b hbl).1.type (hn b hbl).2
    rw [hc] at c1
    cases c1
    have hib : b.item = c.size := by rw [(hn b hbl).1.item, c2]
    have hc0 : 0 < c.size := by have := item_widths hc; omega
    have hown : p.own ≠ 0 := by
      intro h0
      have := h.empty p hpl (by rw [hb]; simp) h0
      have hr : p.rows = 0 := by unfold Part.rows; rw [if_pos h0, this]
      rw [hr, Nat.zero_mul] at hj
      omega
    have hrows : p.rows = p.own := by unfold Part.rows; rw [if_neg hown]
    have hwid : 0 < width tail := by
      rcases Nat.eq_zero_or_pos (width tail) with h0 | h0
      · rw [h0, Nat.mul_zero] at hj; omega
      · exact h0
    have hrb : rowSize b ≠ 0 := by
      unfold rowSize
      rw [hib, hcb]
      exact Nat.ne_of_gt (Nat.mul_pos hc0 hwid)
    have hdl : p.data.length = p.own * width tail * c.size := by
      rw [d1]; unfold rowSize; rw [hib, hcb, Nat.mul_comm c.size, Nat.mul_assoc]
    rw [hrows] at hj
    -- the bytes of the file
    have hbytes : numBytes k ⟨((l.take i).map Part.rows).sum, p.rows + (if i + 1 = l.length then extra else 0), p⟩ =
        if k.type = b.type then p.data else converted c a (p.own * width tail) p.data := by
      unfold numBytes
      dsimp only
      rw [hb]
      dsimp only
      rw [if_neg (fun h => h.elim hown hrb), hc, a1, hcb]
    have hlen : (numBytes k ⟨((l.take i).map Part.rows).sum, p.rows + (if i + 1 = l.length then extra else 0), p⟩).length =
        p.own * width tail * a.size := by
      rw [hbytes]
      split
      · rename_i ht
        rw [ht, hc] at a1
        cases a1
        exact hdl
      · exact converted_length _ _ _ _
    have hjj : (j + 1) * a.size ≤ p.own * width tail * a.size := Nat.mul_le_mul_right _ (by omega)
    have hitem := item_at (o := before l i * width tail) (s := a.size) (j := j) (m := m')
      (w := numBytes k ⟨((l.take i).map Part.rows).sum, p.rows + (if i + 1 = l.length then extra else 0), p⟩) (by
        intro q hq
        have := s2 q hq
        rw [hrk] at this
        rw [← this]
        congr 2
        show before l i * width tail * a.size = a.size * width tail * before l i
        rw [Nat.mul_comm, Nat.mul_comm (before l i), Nat.mul_assoc]) (by rw [hlen]; exact hjj)
    rw [hitem, hbytes]
    by_cases ht : k.type = b.type
    · rw [if_pos ht]
      rw [ht, hc] at a1
      cases a1
      rfl
    · rw [if_neg ht]
      have hne : b.type ≠ k.type := fun h => ht h.symm
      have h0 : b.type ≠ 0 := fun h => hne (by rw [hb0 h, h])
      have hin : inside b.type k.type = true := by
        have := hrel _ (List.mem_map_of_mem hbl)
        rw [hlossy] at this
        simpa using this
      have hjd : (j + 1) * c.size ≤ p.data.length := by rw [hdl]; exact Nat.mul_le_mul_right _ (by omega)
      have hlt := unle_lt (piece c.size p.data j) (piece_bytes d2 j)
      rw [piece_length hjd] at hlt
      obtain ⟨r, r1, r2, r3⟩ := item_value_partial hc a1 hin hne h0 hlt
      have hpiece := flatMap_piece (g := fun i => le a.size ((convItem c a (item c.size p.data i)).getD 0)) (n := p.own * width tail)
        (fun _ _ => le_length _ _) [] hj
      rw [List.append_nil] at hpiece
      have hcv : item a.size (converted c a (p.own * width tail) p.data) j = r := by
        show unle (piece a.size (converted c a (p.own * width tail) p.data) j) = r
        unfold converted
        rw [hpiece]
        show unle (le a.size ((convItem c a (unle (piece c.size p.data j))).getD 0)) = r
        rw [r1]
        exact unle_le _ _ r2
      rw [hcv, r3]
      rfl
  · intro i p hi hb j hj
    have hpl : p ∈ l := List.mem_of_getElem? hi
    obtain ⟨s1, s2⟩ := r3 i p hi _ rfl
    generalize hg : (p.rows + if i + 1 = l.length then extra else 0) = g at *
    have hgl : cols k * g < 2 ^ 31 := by
      have := hgap p hpl hb
      rw [hck]
      refine Nat.lt_of_le_of_lt (Nat.mul_le_mul_left _ ?_) this
      rw [← hg]
      split <;> omega
    obtain ⟨w, w1⟩ := gapFill_some hgl
    have hbytes : numBytes k ⟨((l.take i).map Part.rows).sum, g, p⟩ = w := by
      unfold numBytes
      dsimp only
      rw [hb]
      dsimp only
      rw [w1]
      rfl
    have hw' : w = (List.replicate (g * width tail) (le a.size (defaultBits k.type))).flatten := by
      unfold gapFill at w1
      dsimp only at w1
      rw [hka, if_pos (item_widths a1), hrk] at w1
      have e : a.size * width tail * g / a.size = g * width tail := by
        rw [Nat.mul_assoc, Nat.mul_div_cancel_left _ ha0, Nat.mul_comm]
      rw [e] at w1
      split at w1
      · exact (Option.some.inj w1).symm
      · cases w1
    have hlen : w.length = g * width tail * a.size := by
      rw [gapFill_length w1, hrk, Nat.mul_comm, Nat.mul_comm a.size, ← Nat.mul_assoc]
    have hitem := item_at (o := before l i * width tail) (s := a.size) (j := j) (m := m') (w := w) (by
        intro q hq
        have := s2 q (by rw [hbytes]; exact hq)
        rw [hrk, hbytes] at this
        rw [← this]
        congr 2
        show before l i * width tail * a.size = a.size * width tail * before l i
        rw [Nat.mul_comm, Nat.mul_comm (before l i), Nat.mul_assoc]) (by rw [hlen]; exact Nat.mul_le_mul_right _ (by omega))
    rw [hitem, hw', replicate_item (le_length _ _) hj]
    exact gap_value a1
  · intro hlast i hi
    apply r4
    intro x hx
    right
    obtain ⟨x1, x2, x3, x4, x5⟩ := packets_mem extra l 0 x hx
    have hfull : before l l.length = (l.map Part.rows).sum := by unfold before; rw [List.take_length]
    obtain ⟨y1, y2⟩ := packets_rows extra l 0 x hx
    have hlen : (numBytes k x).length ≤ rowSize k * x.part.rows := by
      by_cases hb : x.part.block = none
      · rcases y2 with y2 | y2
        · have := (hw x hx).2.1
          rw [y2] at this
          exact this
        · exact absurd hb (hlast _ y2)
      · exact (hw x hx).2.2 hb
    have h2 : rowSize k * (x.off + x.part.rows) ≤ rowSize k * before l l.length := Nat.mul_le_mul_left _ (by omega)
    rw [Nat.mul_add] at h2
    rw [← hrk] at hi
    omega

end Riptide.Stack
