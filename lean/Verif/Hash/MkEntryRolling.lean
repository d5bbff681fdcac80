import Verif.Hash.MkEntryMore
/-! # Rolling counts of rows of several arrays over many calls (C131) -/
namespace Riptide.Hash
open Spec Riptide.Work

/-- Calls of `MultiKeyRolling` (`src/MultiKey.cpp:1421-1490`, `src/HashLinear.cpp:5315-5320`), one after the other: every call gets the object that the call before it returned. -/
def rollCalls (H : List UInt8 → Nat) (hint : Int) : Option RollObj → List (List KeyCol) → Option (List RollResult)
  | _, [] => some []
  | obj, b :: bs =>
    match multiKeyRolling H (.list b) hint obj with
    | some (.value r) => (rollCalls H hint (some r.obj) bs).map (r :: ·)
    | _ => none

/-- One batch of `n` rows: arrays of the given widths. -/
def Batch (widths : List Nat) (b : List KeyCol × Nat) : Prop := b.1 ≠ [] ∧ (∀ c ∈ b.1, IsArray b.2 c) ∧ b.1.map (·.width) = widths

/-- The bytes of the rows of a batch. -/
def bytesOf (b : List KeyCol × Nat) : List (List UInt8) := (rowsOf b.1 b.2).map List.flatten

theorem bytesOf_length (b : List KeyCol × Nat) : (bytesOf b).length = b.2 := by simp [bytesOf, rowsOf]

/-- One call on a table that holds the history. -/
theorem roll_once (H : List UInt8 → Nat) {size : Nat} {U : List (List UInt8)} (hs : U.length < size) {keys : List (List UInt8)} (hk : ∀ k ∈ keys, k ∈ U)
    {pre : List (List UInt8)} {t : Slots (List UInt8) (Nat × Nat)} {m : List UInt8 → Option (Nat × Nat)} {u : Nat} {pi pr : List Nat}
    (R : Represents (mkHash H size) size U t m) (I : RollInv pre m u pi pr) (hlen : pre.length + keys.length ≤ 2 ^ 59) :
    ∃ (t' : Slots (List UInt8) (Nat × Nat)) (m' : List UInt8 → Option (Nat × Nat)) (u' : Nat) (index running : List Nat),
      rollStep (mkHash H t.length) (t, u) keys = .ok ((t', u'), (index, running)) ∧ Represents (mkHash H size) size U t' m' ∧
      RollInv (pre ++ keys) m' u' (pi ++ index) (pr ++ running) ∧ index.length = keys.length ∧ running.length = keys.length ∧
      asType .i64 index = ints index ∧ asType .i64 running = ints running := by
  have M := probing_isMap (V := Nat × Nat) (mkHash H size) size U (mkHash_lt H (by omega)) hs
  obtain ⟨t', e, R'⟩ := loop_eq_map M rollPlan rollNext keys (by intro s r hr; simpa [rollPlan] using hk r hr) t m ⟨u, [], []⟩ R
  have I' := roll_loop keys pre m ⟨u, [], []⟩ pi pr (by simpa using I)
  have hidx : (mapLoop rollPlan rollNext m ⟨u, [], []⟩ keys).2.index.length = keys.length := by
    obtain ⟨_, N, _⟩ := I.num
    obtain ⟨_, N', _⟩ := I'.num
    have h1 := N.length
    have h2 := N'.length
    simp only [List.length_map, List.length_append] at h1 h2
    omega
  have hrun : (mapLoop rollPlan rollNext m ⟨u, [], []⟩ keys).2.running.length = keys.length := by
    have h1 := I.run.1
    have h2 := I'.run.1
    simp only [List.length_append] at h2
    omega
  refine ⟨t', _, _, _, _, ?_, R', I', hidx, hrun, asType_i64 ?_, asType_i64 ?_⟩
  · unfold rollStep
    rw [R.len, e]
    rfl
  · intro x hx
    obtain ⟨_, N', _⟩ := I'.num
    have := bins_le N' (x + 1) (List.mem_map.mpr ⟨x, List.mem_append_right _ hx, rfl⟩)
    simp only [List.length_map, List.length_append] at this
    omega
  · intro x hx
    obtain ⟨i, hi⟩ := List.mem_iff_getElem?.mp (List.mem_append_right pr hx)
    have hil : i < (pre ++ keys).length := by rw [← I'.run.1]; exact lt_of_get hi
    have := I'.run.2 i _ (List.getElem?_eq_getElem hil)
    rw [hi] at this
    injection this with this
    rw [this]
    refine Nat.lt_of_le_of_lt (count_le_any _ _ _) ?_
    rw [List.length_take, List.length_append]
    omega

theorem batch_width {widths : List Nat} {b : List KeyCol × Nat} (h : Batch widths b) : rowWidth b.1 = widths.sum := by
  unfold rowWidth
  rw [h.2.2]

theorem hint_plain {hint : Nat} (hh : hint ≤ 2 ^ 59) : (decide ((hint : Int) < -2 ^ 63) || decide ((2 : Int) ^ 63 ≤ (hint : Int))) = false := by
  simp only [Bool.or_eq_false_iff, decide_eq_false_iff_not]
  omega

/-- One later call. -/
theorem roll_later (H : List UInt8 → Nat) {widths : List Nat} (hw : widths.sum ≤ 16) {hint : Nat} (hh : hint ≤ 2 ^ 59) {b : List KeyCol × Nat} (hb : Batch widths b)
    (t : Slots (List UInt8) (Nat × Nat)) (u : Nat) {t' : Slots (List UInt8) (Nat × Nat)} {u' : Nat} {index running : List Nat}
    (e : rollStep (mkHash H t.length) (t, u) (bytesOf b) = .ok ((t', u'), (index, running))) :
    multiKeyRolling H (.list b.1) hint (some ⟨some t, u⟩) = some (.value ⟨some (asType .i64 index), some (asType .i64 running), ⟨some t', u'⟩⟩) := by
  have hk : keyRows (.list b.1) none = _ := keyRows_ok (filter := none) hb.1 hb.2.1 trivial trivial
  unfold multiKeyRolling
  rw [hint_plain hh]
  dsimp only
  rw [if_neg (by simp), hk]
  dsimp only
  rw [keyed_fst, batch_width hb]
  unfold rollRows
  rw [if_neg (by omega)]
  simp only [Option.isSome_some, if_true, Option.getD_some]
  rw [if_neg (by decide)]
  dsimp only
  rw [show (rowsOf b.1 b.2).map List.flatten = bytesOf b from rfl, e]
  rfl

/-- The first call. -/
theorem roll_first (H : List UInt8 → Nat) {widths : List Nat} (hw : widths.sum ≤ 16) {hint : Nat} (hh : hint ≤ 2 ^ 59) {b : List KeyCol × Nat} (hb : Batch widths b)
    {size : Nat} (hs : tableSize 2 (expected hint b.2 : Nat) = some size) {t' : Slots (List UInt8) (Nat × Nat)} {u' : Nat} {index running : List Nat}
    (e : rollStep (mkHash H (fresh (List UInt8) (Nat × Nat) size).length) (fresh _ _ size, 0) (bytesOf b) = .ok ((t', u'), (index, running))) :
    multiKeyRolling H (.list b.1) hint none = some (.value ⟨some (asType .i64 index), some (asType .i64 running), ⟨some t', u'⟩⟩) := by
  have hk : keyRows (.list b.1) none = _ := keyRows_ok (filter := none) hb.1 hb.2.1 trivial trivial
  unfold multiKeyRolling
  rw [hint_plain hh]
  dsimp only
  rw [if_neg (by simp), hk]
  dsimp only
  rw [keyed_fst, batch_width hb]
  unfold rollRows
  rw [if_neg (by omega)]
  have h1 : ((rowsOf b.1 b.2).map List.flatten).length = b.2 := bytesOf_length b
  simp only [Option.isSome_none, Bool.false_eq_true, if_false, Option.getD_none]
  rw [if_pos (by omega), h1, wanted_nat, show hintOr hint b.2 = expected hint b.2 from rfl, hs]
  dsimp only [Option.map_some]
  rw [show (rowsOf b.1 b.2).map List.flatten = bytesOf b from rfl, e]

/-- The later calls. -/
theorem roll_rest (H : List UInt8 → Nat) {widths : List Nat} (hw : widths.sum ≤ 16) {hint : Nat} (hh : hint ≤ 2 ^ 59) {size : Nat} {U : List (List UInt8)}
    (hs : U.length < size) : ∀ (bs : List (List KeyCol × Nat)), (∀ b ∈ bs, Batch widths b) → (∀ b ∈ bs, ∀ k ∈ bytesOf b, k ∈ U) →
    ∀ (pre : List (List UInt8)) (t : Slots (List UInt8) (Nat × Nat)) (m : List UInt8 → Option (Nat × Nat)) (u : Nat) (pi pr : List Nat),
    Represents (mkHash H size) size U t m → RollInv pre m u pi pr → pre.length + (bs.flatMap bytesOf).length ≤ 2 ^ 59 →
    ∃ (parts : List (List Nat × List Nat)) (rs : List RollResult) (m' : List UInt8 → Option (Nat × Nat)) (u' : Nat),
      rollCalls H hint (some ⟨some t, u⟩) (bs.map Prod.fst) = some rs ∧
      rs.map (fun r => (r.index, r.running)) = parts.map (fun p => (some (ints p.1), some (ints p.2))) ∧
      parts.map (fun p => (p.1.length, p.2.length)) = bs.map (fun b => (b.2, b.2)) ∧
      RollInv (pre ++ bs.flatMap bytesOf) m' u' (pi ++ parts.flatMap Prod.fst) (pr ++ parts.flatMap Prod.snd) ∧
      (rs.getLast?.map fun r => r.obj.uniques).getD u = u' := by
  intro bs
  induction bs with
  | nil =>
    intro _ _ pre t m u pi pr _ I _
    exact ⟨[], [], m, u, rfl, rfl, rfl, by simpa using I, rfl⟩
  | cons b bs ih =>
    intro hB hU pre t m u pi pr R I hlen
    rw [List.flatMap_cons, List.length_append] at hlen
    obtain ⟨t', m', u', index, running, e, R', I', h1, h2, h3, h4⟩ := roll_once H hs (hU b (by simp)) R I (by omega)
    obtain ⟨parts, rs, m2, u2, e2, h5, h6, I2, h7⟩ := ih (fun c hc => hB c (by simp [hc])) (fun c hc => hU c (by simp [hc])) _ t' m' u' _ _ R' I'
      (by rw [List.length_append]; omega)
    have ec := roll_later H hw hh (hB b (by simp)) t u e
    rw [h3, h4] at ec
    refine ⟨(index, running) :: parts, ⟨some (ints index), some (ints running), ⟨some t', u'⟩⟩ :: rs, m2, u2, ?_, ?_, ?_, ?_, ?_⟩
    · rw [List.map_cons, rollCalls, ec]
      dsimp only
      rw [e2]
      rfl
    · rw [List.map_cons, List.map_cons, h5]
    · rw [List.map_cons, List.map_cons, h6, h1, h2, bytesOf_length]
    · simpa [List.append_assoc, List.flatMap_cons] using I2
    · rw [← h7]
      cases rs with
      | nil => rfl
      | cons r rs =>
        rw [List.getLast?_cons_cons]
        cases h : (r :: rs).getLast? with
        | none => simp at h
        | some q => rfl

theorem batch_rows_inj {widths : List Nat} {bs : List (List KeyCol × Nat)} (hB : ∀ b ∈ bs, Batch widths b) {x y : List (List UInt8)}
    (hx : x ∈ bs.flatMap fun b => rowsOf b.1 b.2) (hy : y ∈ bs.flatMap fun b => rowsOf b.1 b.2) (h : x.flatten = y.flatten) : x = y := by
  have hl : ∀ z ∈ bs.flatMap fun b => rowsOf b.1 b.2, z.map List.length = widths := by
    intro z hz
    rw [List.mem_flatMap] at hz
    obtain ⟨b, hb, hz⟩ := hz
    obtain ⟨i, hi, rfl⟩ := mem_rowsOf hz
    rw [row_length (hB b hb).2.1 hi, (hB b hb).2.2]
  exact flatten_inj (by rw [hl x hx, hl y hy]) h

/-- **C131**, `MultiKeyRolling`: over any number of calls, with arrays of the same widths, the rows are numbered by first appearance over the whole history, every
row gets the number of its occurrences so far, and the number of different rows is kept. -/
theorem rolling_calls_partial (H : List UInt8 → Nat) (widths : List Nat) (hw : widths.sum ≤ 16) (hint : Nat) (hh : hint ≤ 2 ^ 59) (b : List KeyCol × Nat)
    (bs : List (List KeyCol × Nat)) (hB : ∀ c ∈ b :: bs, Batch widths c) (U : List (List (List UInt8))) (hU : ∀ c ∈ b :: bs, ∀ k ∈ rowsOf c.1 c.2, k ∈ U)
    (hlen : ((b :: bs).map Prod.snd).sum ≤ 2 ^ 59) (hroom : U.length < 65536 ∨ U.length < 2 * expected hint b.2) :
    ∃ (parts : List (List Nat × List Nat)) (rs : List RollResult) (firsts : List Nat),
      rollCalls H hint none ((b :: bs).map Prod.fst) = some rs ∧
      rs.map (fun r => (r.index, r.running)) = parts.map (fun p => (some (ints p.1), some (ints p.2))) ∧
      parts.map (fun p => (p.1.length, p.2.length)) = (b :: bs).map (fun c => (c.2, c.2)) ∧
      Numbering (((b :: bs).flatMap fun c => rowsOf c.1 c.2).map fun k => (k, true)) ((parts.flatMap Prod.fst).map (· + 1)) firsts ∧
      (∀ (i : Nat) k, ((b :: bs).flatMap fun c => rowsOf c.1 c.2)[i]? = some k →
        (parts.flatMap Prod.snd)[i]? = some ((((b :: bs).flatMap fun c => rowsOf c.1 c.2).take (i + 1)).count k)) ∧
      rs.getLast?.map (fun r => r.obj.uniques) = some firsts.length := by
  have hlen' : ∀ cs : List (List KeyCol × Nat), (cs.flatMap bytesOf).length = (cs.map Prod.snd).sum := by
    intro cs
    induction cs with
    | nil => rfl
    | cons c cs ih => rw [List.flatMap_cons, List.length_append, ih, bytesOf_length]; rfl
  have hl := hlen' (b :: bs)
  have hb2 : b.2 ≤ 2 ^ 59 := by simp only [List.map_cons, List.sum_cons] at hlen; omega
  obtain ⟨s, e, hs⟩ := room_size (mode := 2) (width := 3) (expected_le hb2 hh) (.inl ⟨rfl, .inr (.inr hroom)⟩) (by decide) (by decide)
  have hU' : ∀ c ∈ b :: bs, ∀ k ∈ bytesOf c, k ∈ U.map List.flatten := by
    intro c hc k hk
    unfold bytesOf at hk
    rw [List.mem_map] at hk
    obtain ⟨r, hr, rfl⟩ := hk
    exact List.mem_map_of_mem (hU c hc r hr)
  have hs' : (U.map List.flatten).length < s := by simpa using hs
  rw [← hl, List.flatMap_cons, List.length_append] at hlen
  obtain ⟨t', m', u', index, running, e1, R', I', h1, h2, h3, h4⟩ := roll_once H hs' (hU' b (by simp)) (pre := []) (represents_fresh (mkHash H s) s _) roll_init
    (by simp only [List.length_nil]; omega)
  have ec := roll_first H hw hh (hB b (by simp)) e e1
  rw [h3, h4] at ec
  obtain ⟨parts, rs, m2, u2, e2, h5, h6, I2, h7⟩ := roll_rest H hw hh hs' bs (fun c hc => hB c (by simp [hc])) (fun c hc => hU' c (by simp [hc])) _ t' m' u' _ _ R' I'
    (by simp only [List.nil_append]; omega)
  simp only [List.nil_append] at I2
  have hflat : bytesOf b ++ bs.flatMap bytesOf = ((b :: bs).flatMap fun c => rowsOf c.1 c.2).map List.flatten := by
    rw [← List.flatMap_cons, List.map_flatMap]
    rfl
  rw [hflat] at I2
  obtain ⟨firsts, N, hf⟩ := I2.num
  have inj : ∀ x ∈ (b :: bs).flatMap fun c => rowsOf c.1 c.2, ∀ y ∈ (b :: bs).flatMap fun c => rowsOf c.1 c.2, x.flatten = y.flatten → x = y :=
    fun x hx y hy h => batch_rows_inj hB hx hy h
  refine ⟨(index, running) :: parts, ⟨some (ints index), some (ints running), ⟨some t', u'⟩⟩ :: rs, firsts, ?_, ?_, ?_, ?_, ?_, ?_⟩
  · rw [List.map_cons, rollCalls, ec]
    dsimp only
    rw [e2]
    rfl
  · rw [List.map_cons, List.map_cons, h5]
  · rw [List.map_cons, List.map_cons, h6, h1, h2, bytesOf_length]
  · refine numbering_map List.flatten ?_ ?_
    · intro x hx y hy he
      rw [List.mem_map] at hx hy
      obtain ⟨p, hp, rfl⟩ := hx
      obtain ⟨q, hq, rfl⟩ := hy
      exact inj p hp q hq he
    · rw [List.map_map] at N ⊢
      exact N
  · intro i k hk
    have h := I2.run.2 i k.flatten (by rw [List.getElem?_map, hk]; rfl)
    rw [List.flatMap_cons, h, ← List.map_take]
    refine congrArg some ?_
    refine (count_any _ _ _ _ inferInstance inferInstance).trans (count_map List.flatten k _ ?_)
    intro x hx he
    exact inj x (List.mem_of_mem_take hx) k (List.mem_of_getElem? hk) he
  · rw [hf, ← h7]
    cases rs with
    | nil => rfl
    | cons r rs =>
      rw [List.getLast?_cons_cons]
      cases h : (r :: rs).getLast? with
      | none => simp at h
      | some q => rfl

-- two calls
example : ∃ (parts : List (List Nat × List Nat)) (rs : List RollResult) (firsts : List Nat),
      rollCalls (fun _ => 7) 0 none [[⟨2, 1, false, [5, 6]⟩], [⟨1, 1, false, [5]⟩]] = some rs ∧
      rs.map (fun r => (r.index, r.running)) = parts.map (fun p => (some (ints p.1), some (ints p.2))) ∧
      parts.map (fun p => (p.1.length, p.2.length)) = [(2, 2), (1, 1)] ∧
      Numbering (([[[5]], [[6]], [[5]]] : List (List (List UInt8))).map fun k => (k, true)) ((parts.flatMap Prod.fst).map (· + 1)) firsts ∧
      (∀ (i : Nat) (k : List (List UInt8)), [[[5]], [[6]], [[5]]][i]? = some k → (parts.flatMap Prod.snd)[i]? = some (([[[5]], [[6]], [[5]]].take (i + 1)).count k)) ∧
      rs.getLast?.map (fun r => r.obj.uniques) = some firsts.length :=
  rolling_calls_partial (fun _ => 7) [1] (by decide) 0 (by decide) ([⟨2, 1, false, [5, 6]⟩], 2) [([⟨1, 1, false, [5]⟩], 1)]
    (by simp [Batch, IsArray]) [[[5]], [[6]]] (by decide) (by decide) (.inl (by decide))

/-- Rows of more than 16 bytes are not looked at: the two arrays that are returned hold whatever was in the memory. -/
theorem wide_rolling_rows_give_nothing (H : List UInt8 → Nat) (keys : List KeyCol) (n : Nat) (h0 : keys ≠ []) (hc : ∀ c ∈ keys, IsArray n c) (hw : 16 < rowWidth keys)
    (hint : Nat) (hh : hint ≤ 2 ^ 59) : multiKeyRolling H (.list keys) hint none = some (.value ⟨none, none, ⟨none, 0⟩⟩) := by
  have hk : keyRows (.list keys) none = _ := keyRows_ok (filter := none) h0 hc trivial trivial
  unfold multiKeyRolling
  rw [hint_plain hh]
  dsimp only
  rw [if_neg (by simp), hk]
  dsimp only
  unfold rollRows
  rw [if_pos hw]
  rfl

/-- A negative hint without an object: no table is made, and the arrays hold whatever was in the memory, in this call and in all later ones. -/
theorem negative_hints_give_nothing (H : List UInt8 → Nat) (keys : List KeyCol) (n : Nat) (h0 : keys ≠ []) (hc : ∀ c ∈ keys, IsArray n c)
    (hint : Int) (h1 : hint < 0) (h2 : -2 ^ 63 ≤ hint) (obj : Option RollObj) (ho : obj = none ∨ hint ≠ -1 ∧ obj = some ⟨none, 0⟩) :
    multiKeyRolling H (.list keys) hint obj = some (.value ⟨none, none, ⟨none, 0⟩⟩) := by
  have hk : keyRows (.list keys) none = _ := keyRows_ok (filter := none) h0 hc trivial trivial
  have hr : (decide (hint < -2 ^ 63) || decide ((2 : Int) ^ 63 ≤ hint)) = false := by
    simp only [Bool.or_eq_false_iff, decide_eq_false_iff_not]
    omega
  unfold multiKeyRolling
  rw [hr]
  dsimp only
  rw [if_neg (by
    rcases ho with rfl | ⟨h, rfl⟩
    · simp
    · simp; exact h), hk]
  dsimp only
  unfold rollRows
  by_cases hw : 16 < rowWidth keys
  · rw [if_pos hw]
    rcases ho with rfl | ⟨_, rfl⟩ <;> rfl
  · rw [if_neg hw]
    rcases ho with rfl | ⟨_, rfl⟩
    · simp only [Option.isSome_none, Bool.false_eq_true, if_false, Option.getD_none]
      rw [if_neg (by omega)]
    · simp only [Option.isSome_some, if_true, Option.getD_some]
      rw [if_neg (by decide)]
      rfl

/-- A hint of -1 deletes the object; nothing is returned. -/
theorem rolling_objects_are_deleted (H : List UInt8 → Nat) (arg : KeyArg) (obj : RollObj) : multiKeyRolling H arg (-1) (some obj) = some .pyNone := rfl

/-- When the rows kept and the new ones are more than the slots of the table, nobody catches the exception: the process ends. -/
theorem too_many_rolling_rows (H : List UInt8 → Nat) (keys : List KeyCol) (n hint : Nat) (h0 : keys ≠ []) (hc : ∀ c ∈ keys, IsArray n c) (hw : rowWidth keys ≤ 16)
    (hh : hint ≤ 2 ^ 59) (t : Slots (List UInt8) (Nat × Nat)) (u : Nat) (ht : 0 < t.length) (U : List (List UInt8)) (hU : U.Nodup)
    (hUk : ∀ k ∈ U, k ∈ stored t ∨ k ∈ (rowsOf keys n).map List.flatten) (hmany : t.length < U.length) :
    multiKeyRolling H (.list keys) hint (some ⟨some t, u⟩) = none := by
  have hk : keyRows (.list keys) none = _ := keyRows_ok (filter := none) h0 hc trivial trivial
  have g : rollStep (mkHash H t.length) (t, u) ((rowsOf keys n).map List.flatten) = .error .full := by
    unfold rollStep
    rw [loop_full (mkHash_lt H ht) (key := some) (by
      intro st r
      exact ⟨_, _, rfl⟩) _ _ _ rfl U hU (fun k hk => (hUk k hk).imp id fun h => ⟨k, h, rfl⟩) hmany]
    rfl
  unfold multiKeyRolling
  rw [hint_plain hh]
  dsimp only
  rw [if_neg (by simp), hk]
  dsimp only
  rw [keyed_fst]
  unfold rollRows
  rw [if_neg (by omega)]
  simp only [Option.isSome_some, if_true, Option.getD_some]
  rw [if_neg (by decide)]
  dsimp only
  rw [g]

-- a table of one slot
example : multiKeyRolling (fun _ => 7) (.list [⟨2, 1, false, [5, 6]⟩]) 0 (some ⟨some (fresh _ _ 1), 0⟩) = none :=
  too_many_rolling_rows _ _ 2 0 (by decide) (by simp [IsArray]) (by decide) (by decide) _ 0 (by decide) [[5], [6]] (by decide) (by decide) (by decide)

end Riptide.Hash
