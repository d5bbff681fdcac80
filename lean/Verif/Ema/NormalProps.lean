import Verif.Ema.DecayProps
import Verif.Ema.ExtremeProps
/-! Exponential moving averages (C77). -/
namespace Riptide.Ema

variable {R : Type} [Lean.Grind.CommRing R]

omit [Lean.Grind.CommRing R] in
theorem firstValues_succ (key : List Int) (src : List R) (n : Nat) (raw : List R) :
    firstValues key src (n + 1) raw = (firstStep key src raw n).bind (firstValues key src n) := by
  unfold firstValues
  rw [List.range_succ, List.reverse_append, List.reverse_singleton, List.singleton_append,
    List.foldlM_cons]
  rfl

/-- The backward loop leaves the first value of every bin. -/
theorem firstValues_spec (key : List Int) (src : List R) (uniq n : Nat) (raw : List R)
    (hr : raw.length = uniq + 1) (hk : ∀ i, i < n → key[i]? = some (keyAt key i))
    (hs : ∀ i, i < n → src[i]? = some (src.getD i 0)) (hu : ∀ i, i < n → 0 ≤ keyAt key i ∧ keyAt key i ≤ uniq) :
    ∃ ws, firstValues key src n raw = some ws ∧ ws.length = uniq + 1 ∧
      (∀ i, i < n → (∀ j, j < i → keyAt key j ≠ keyAt key i) →
        ws[(keyAt key i).toNat]? = some (src.getD i 0)) ∧
      ∀ k : Nat, (∀ j, j < n → keyAt key j ≠ k) → ws[k]? = raw[k]? := by
  induction n generalizing raw with
  | zero => exact ⟨raw, rfl, hr, fun i h => absurd h (Nat.not_lt_zero i), fun _ _ => rfl⟩
  | succ n ih =>
    have hb := hu n (by omega)
    have hset : firstStep key src raw n = some (raw.set (keyAt key n).toNat (src.getD n 0)) := by
      unfold firstStep
      rw [hk n (by omega), Option.bind_some, hs n (by omega), Option.bind_some,
        if_pos ⟨hb.1, by omega⟩]
    obtain ⟨ws, h1, h2, h3, h4⟩ := ih (raw.set (keyAt key n).toNat (src.getD n 0)) (by simpa using hr)
      (fun i h => hk i (by omega)) (fun i h => hs i (by omega)) (fun i h => hu i (by omega))
    refine ⟨ws, by rw [firstValues_succ, hset, Option.bind_some, h1], h2, fun i hi hf => ?_,
      fun k hn => ?_⟩
    · by_cases e : i < n
      · exact h3 i e hf
      · obtain rfl : i = n := by omega
        rw [h4 (keyAt key i).toNat (fun j hj e' => hf j hj (by omega)),
          List.getElem?_set_self (by omega)]
    · rw [h4 k fun j hj => hn j (by omega), List.getElem?_set_ne]
      intro e
      exact hn n (by omega) (by omega)

/-- The rows of a key up to the previous one. -/
theorem rowsBelow_prev (key : Nat → Int) (k : Int) (p i : Nat) (hp : p < i)
    (hn : ∀ j, p < j → j < i → key j ≠ k) : rowsBelow key k i = rowsBelow key k (p + 1) := by
  obtain ⟨d, rfl⟩ : ∃ d, i = p + 1 + d := ⟨i - (p + 1), by omega⟩
  induction d with
  | zero => rfl
  | succ d ih =>
    rw [show p + 1 + (d + 1) = p + 1 + d + 1 from rfl, rowsBelow_succ,
      if_neg (hn (p + 1 + d) (by omega) (by omega)), List.append_nil]
    exact ih (by omega) fun j h1 h2 => hn j h1 (by omega)

theorem rowsBelow_none (key : Nat → Int) (k : Int) (i : Nat) (hn : ∀ j, j < i → key j ≠ k) :
    rowsBelow key k i = [] := by
  unfold rowsBelow
  rw [List.filter_eq_nil_iff]
  intro j hj
  simpa using hn j (List.mem_range.1 hj)

/-- A loop whose cell keeps the average and the last time: it computes an average. -/
theorem averages (V : IT) (hV : 0 < V.bits) (w : Int → R) (f : NCell R → Nat → NCell R) (val : NCell R → Nat → R)
    (x : Nat → R) (t : Nat → Int) (key : Nat → Int) (init : Int → NCell R) (n : Nat)
    (hf : ∀ c i, (f c i).ema = (normalTo V w c (val c i) (t i)).ema ∧ (f c i).last = t i)
    (hval : ∀ i, i < n → 1 ≤ key i → val ((rowsBelow key (key i) i).foldl f (init (key i))) i = x i)
    (hinit : ∀ i, i < n → 1 ≤ key i → (∀ j, j < i → key j ≠ key i) → (init (key i)).ema = x i)
    (hd : ∀ i j, j < i → i < n → key i = key j → V.InRange (t i - t j)) :
    Spec.Averages key x (fun i p => if t i < t p then 0 else w (t i - t p))
      (fun i => ((rowsBelow key (key i) (i + 1)).foldl f (init (key i))).ema) n := by
  have hsnoc : ∀ i, (rowsBelow key (key i) (i + 1)).foldl f (init (key i)) =
      f ((rowsBelow key (key i) i).foldl f (init (key i))) i := by
    intro i
    rw [rowsBelow_succ, if_pos rfl, List.foldl_append]; rfl
  refine ⟨fun i hi hk hfirst => ?_, fun i p hi hk hp hkp hbt => ?_⟩
  · dsimp only
    rw [hsnoc, (hf _ i).1, hval i hi hk]
    show x i * (1 - _) + NCell.ema _ * _ = x i
    rw [rowsBelow_none key (key i) i hfirst, List.foldl_nil, hinit i hi hk hfirst]
    grind
  · dsimp only
    rw [hsnoc, (hf _ i).1, hval i hi hk]
    have hprev : (rowsBelow key (key i) i).foldl f (init (key i)) =
        (rowsBelow key (key p) (p + 1)).foldl f (init (key p)) := by
      rw [hkp, rowsBelow_prev key (key i) p i hp hbt]
    rw [hprev]
    have hlast : ((rowsBelow key (key p) (p + 1)).foldl f (init (key p))).last = t p := by
      rw [hsnoc p, (hf _ p).2]
    have hs : since V (t i) (t p) = t i - t p := by
      unfold since
      exact IT.wrap_of_inRange V hV (hd i p hp hi hkp.symm)
    show x i * (1 - weightOf w (since V (t i) (NCell.last _))) +
      NCell.ema _ * weightOf w (since V (t i) (NCell.last _)) = _
    rw [hlast, hs]
    unfold weightOf
    by_cases e : t i < t p
    · rw [if_pos e, if_pos (by omega)]
    · rw [if_neg e, if_neg (by omega)]

/-- C77 for `EmaNormal` without masks.  Missing from the full statement: resets
(`emaNormal_reset_false`), filtered groups (`emaNormal_filter_false`), negative keys
(`emaNormal_negative_key`), times whose difference does not fit their type, rounding. -/
theorem emaNormal_partial (V : IT) (hV : 0 < V.bits) (w : Int → R) (inv : R) (key : List Int)
    (src : List R) (time : List Int) (uniq n : Nat) (raw : List R) (h : Ok ⟨none, none⟩ key uniq n)
    (h0 : ∀ k ∈ key, 0 ≤ k) (hr : raw.length = uniq + 1) (hs : src.length = n) (ht : time.length = n)
    (hd : ∀ i j, j < i → i < n → keyAt key i = keyAt key j →
      V.InRange (time.getD i 0 - time.getD j 0)) :
    ∃ out avg, emaNormal V w inv ⟨none, none⟩ key src time n raw = some out ∧ out.length = n ∧
      (∀ i, i < n → out[i]? = some (some (if 1 ≤ keyAt key i then avg i else inv))) ∧
      Spec.Averages (keyAt key) (fun i => src.getD i 0)
        (fun i p => if time.getD i 0 < time.getD p 0 then 0 else w (time.getD i 0 - time.getD p 0))
        avg n := by
  have hx : ∀ i, i < n → src[i]? = some (src.getD i 0) := fun i hi => getElem?_getD src i 0 (by omega)
  have htm : ∀ i, i < n → time[i]? = some (time.getD i 0) := fun i hi => getElem?_getD time i 0 (by omega)
  obtain ⟨ws, e1, e2, e3, _⟩ := firstValues_spec key src uniq n raw hr h.key hx
    fun i hi => ⟨h0 _ (List.mem_of_getElem? (h.key i hi)), h.key_le i hi⟩
  let init : Int → NCell R := fun k => ⟨ws.getD k.toNat 0, farPast V, 0⟩
  let f : NCell R → Nat → NCell R := fun c i => normalTo V w c (src.getD i 0) (time.getD i 0)
  obtain ⟨out, h1, h2, h3⟩ := guarded_from f init key (keyAt key) uniq n (some inv)
    (normalCell V w ⟨none, none⟩ src time) (fun c _ => c.ema)
    (ws.map fun e => (⟨e, farPast V, 0⟩ : NCell R))
    ⟨by simp [e2], fun k _ hk => by
      rw [List.getElem?_map, getElem?_getD ws k 0 (by omega)]; rfl⟩
    h.key (fun i hi c => by
      show src[i]?.bind _ = _
      rw [hx i hi, Option.bind_some, htm i hi]; rfl) h.key_le
  refine ⟨out, fun i => ((rowsBelow (keyAt key) (keyAt key i) (i + 1)).foldl f (init (keyAt key i))).ema,
    ?_, h2, fun i hi => ?_, ?_⟩
  · unfold emaNormal
    rw [e1, Option.bind_some]
    exact h1
  · rw [h3 i hi]
    split <;> rfl
  · refine averages V hV w f (fun _ i => src.getD i 0) (fun i => src.getD i 0) (fun i => time.getD i 0)
      (keyAt key) init n (fun c i => ⟨rfl, rfl⟩) (fun _ _ _ => rfl) (fun i hi _ hfirst => ?_) hd
    show ws.getD (keyAt key i).toNat 0 = _
    rw [List.getD_eq_getElem?_getD, e3 i hi hfirst]
    rfl

/-- The last included row of the group of `i`, up to `i`. -/
def lastIn (key : Nat → Int) (inc : Nat → Bool) (i : Nat) : Nat := (Spec.upTo key inc i).getLastD i

/-- C77 for `EmaNormal` with a filter only, when the first row of every group passes it: the average of
the column in which excluded rows repeat the last included value of their group. -/
theorem emaNormal_filter_partial (V : IT) (hV : 0 < V.bits) (w : Int → R) (inv : R) (inc : List Bool)
    (key : List Int) (src : List R) (time : List Int) (uniq n : Nat) (raw : List R)
    (h : Ok ⟨some inc, none⟩ key uniq n)
    (h0 : ∀ k ∈ key, 0 ≤ k) (hr : raw.length = uniq + 1) (hs : src.length = n) (ht : time.length = n)
    (hfi : ∀ i, i < n → 1 ≤ keyAt key i → (∀ j, j < i → keyAt key j ≠ keyAt key i) →
      inc.getD i true = true)
    (hd : ∀ i j, j < i → i < n → keyAt key i = keyAt key j →
      V.InRange (time.getD i 0 - time.getD j 0)) :
    ∃ out avg, emaNormal V w inv ⟨some inc, none⟩ key src time n raw = some out ∧ out.length = n ∧
      (∀ i, i < n → out[i]? = some (some (if 1 ≤ keyAt key i then avg i else inv))) ∧
      Spec.Averages (keyAt key) (fun i => src.getD (lastIn (keyAt key) (fun j => inc.getD j true) i) 0)
        (fun i p => if time.getD i 0 < time.getD p 0 then 0 else w (time.getD i 0 - time.getD p 0))
        avg n := by
  have hx : ∀ i, i < n → src[i]? = some (src.getD i 0) := fun i hi => getElem?_getD src i 0 (by omega)
  have htm : ∀ i, i < n → time[i]? = some (time.getD i 0) := fun i hi => getElem?_getD time i 0 (by omega)
  have hin : ∀ i, i < n → inc[i]? = some (inc.getD i true) := fun i hi =>
    getElem?_getD inc i true (by have := h.fit.1 inc rfl; omega)
  obtain ⟨ws, e1, e2, e3, _⟩ := firstValues_spec key src uniq n raw hr h.key hx
    fun i hi => ⟨h0 _ (List.mem_of_getElem? (h.key i hi)), h.key_le i hi⟩
  let init : Int → NCell R := fun k => ⟨ws.getD k.toNat 0, farPast V, 0⟩
  let val : NCell R → Nat → R := fun c i => if inc.getD i true then src.getD i 0 else c.value
  let f : NCell R → Nat → NCell R := fun c i =>
    { normalTo V w c (val c i) (time.getD i 0) with value := val c i }
  obtain ⟨out, h1, h2, h3⟩ := guarded_from f init key (keyAt key) uniq n (some inv)
    (normalCell V w ⟨some inc, none⟩ src time) (fun c _ => c.ema)
    (ws.map fun e => (⟨e, farPast V, 0⟩ : NCell R))
    ⟨by simp [e2], fun k _ hk => by
      rw [List.getElem?_map, getElem?_getD ws k 0 (by omega)]; rfl⟩
    h.key (fun i hi c => by
      show inc[i]?.bind _ = _
      rw [hin i hi, Option.bind_some, hx i hi, htm i hi]
      show _ = some ({ normalTo V w c (if inc.getD i true then src.getD i 0 else c.value) (time.getD i 0)
        with value := if inc.getD i true then src.getD i 0 else c.value } : NCell R)
      split <;> rfl) h.key_le
  -- the remembered value is that of the last included row
  have hvalue : ∀ (k : Int) (m : Nat), rowsBelow (keyAt key) k m ≠ [] →
      ((rowsBelow (keyAt key) k m).filter fun j => inc.getD j true) ≠ [] →
      ((rowsBelow (keyAt key) k m).foldl f (init k)).value =
        src.getD (((rowsBelow (keyAt key) k m).filter fun j => inc.getD j true).getLastD 0) 0 := by
    intro k m
    induction m with
    | zero => intro h; exact absurd rfl h
    | succ m ih =>
      intro _ hne
      rw [rowsBelow_succ] at hne ⊢
      by_cases e : keyAt key m = k
      · rw [if_pos e, List.filter_append] at hne ⊢
        rw [List.foldl_append]
        show (if inc.getD m true then src.getD m 0 else NCell.value _) = _
        by_cases hi : inc.getD m true = true
        · rw [if_pos hi, show List.filter (fun j => inc.getD j true) [m] = [m] by
            simp only [List.filter_cons, hi]; rfl]
          simp
        · have hnil : List.filter (fun j => inc.getD j true) [m] = [] := by
            simp only [List.filter_cons, Bool.eq_false_iff.2 hi]; rfl
          rw [hnil, List.append_nil] at hne ⊢
          rw [if_neg hi]
          exact ih (fun h => hne (by rw [h]; rfl)) hne
      · rw [if_neg e, List.append_nil] at hne ⊢
        exact ih (fun h => hne (by rw [h]; rfl)) hne
  refine ⟨out, fun i => ((rowsBelow (keyAt key) (keyAt key i) (i + 1)).foldl f (init (keyAt key i))).ema,
    ?_, h2, fun i hi => ?_, ?_⟩
  · unfold emaNormal
    rw [e1, Option.bind_some]
    exact h1
  · rw [h3 i hi]
    split <;> rfl
  · refine averages V hV w f val
      (fun i => src.getD (lastIn (keyAt key) (fun j => inc.getD j true) i) 0) (fun i => time.getD i 0)
      (keyAt key) init n (fun c i => ⟨rfl, rfl⟩) (fun i hi hk => ?_) (fun i hi hk hfirst => ?_) hd
    · show (if inc.getD i true then src.getD i 0 else NCell.value _) = _
      unfold lastIn
      rw [upTo_eq, rowsBelow_succ, if_pos rfl, List.filter_append]
      by_cases hinc : inc.getD i true = true
      · rw [if_pos hinc, show List.filter (fun j => inc.getD j true) [i] = [i] by
            simp only [List.filter_cons, hinc]; rfl]
        simp
      · have hnil : List.filter (fun j => inc.getD j true) [i] = [] := by
          simp only [List.filter_cons, Bool.eq_false_iff.2 hinc]; rfl
        rw [if_neg hinc, hnil, List.append_nil]
        -- the first row of the group is included
        have hne : ((rowsBelow (keyAt key) (keyAt key i) i).filter fun j => inc.getD j true) ≠ [] := by
          obtain ⟨p, hp1, hp2, hp3⟩ : ∃ p, p < i ∧ keyAt key p = keyAt key i ∧
              ∀ j, j < p → keyAt key j ≠ keyAt key i := by
            by_cases hfirst : ∀ j, j < i → keyAt key j ≠ keyAt key i
            · exact absurd (hfi i hi hk hfirst) hinc
            · have hex : ∃ j, j < i ∧ keyAt key j = keyAt key i := by
                apply Classical.byContradiction
                intro hcon
                exact hfirst fun j hj e => hcon ⟨j, hj, e⟩
              have : ∀ m j, j ≤ m → j < i → keyAt key j = keyAt key i →
                  ∃ p, p < i ∧ keyAt key p = keyAt key i ∧ ∀ j, j < p → keyAt key j ≠ keyAt key i := by
                intro m
                induction m with
                | zero =>
                  intro j hj hji e
                  obtain rfl : j = 0 := by omega
                  exact ⟨0, hji, e, fun j hj => absurd hj (Nat.not_lt_zero j)⟩
                | succ m ih =>
                  intro j hj hji e
                  by_cases hl : ∃ q, q < j ∧ keyAt key q = keyAt key i
                  · obtain ⟨q, hq1, hq2⟩ := hl
                    exact ih q (by omega) (by omega) hq2
                  · exact ⟨j, hji, e, fun q hq eq => hl ⟨q, hq, eq⟩⟩
              obtain ⟨j, hj, e⟩ := hex
              exact this j j (Nat.le_refl j) hj e
          intro hnil
          have hmem : p ∈ (rowsBelow (keyAt key) (keyAt key i) i).filter fun j => inc.getD j true := by
            rw [List.mem_filter]
            refine ⟨?_, hfi p (by omega) (by rw [hp2]; exact hk) fun j hj => by
              rw [hp2]; exact hp3 j hj⟩
            unfold rowsBelow
            rw [List.mem_filter]
            exact ⟨List.mem_range.2 hp1, by simpa using hp2⟩
          rw [hnil] at hmem
          cases hmem
        rw [hvalue (keyAt key i) i (fun h => hne (by rw [h]; rfl)) hne]
        have hl : ∀ l : List Nat, l ≠ [] → l.getLastD 0 = l.getLastD i := by
          intro l hl
          rw [List.getLastD_eq_getLast?, List.getLastD_eq_getLast?, List.getLast?_eq_some_getLast hl]
          rfl
        rw [hl _ hne]
    · show ws.getD (keyAt key i).toNat 0 = _
      rw [List.getD_eq_getElem?_getD, e3 i hi hfirst]
      unfold lastIn
      rw [upTo_eq, rowsBelow_succ, if_pos rfl, rowsBelow_none _ _ _ hfirst, List.nil_append,
        show List.filter (fun j => inc.getD j true) [i] = [i] by
          simp only [List.filter_cons, hfi i hi hk hfirst]; rfl]
      rfl

/-- C77 for `EmaWeighted` without masks: a moving average with a fixed weight. -/
theorem emaWeighted_partial (wt inv : R) (key : List Int) (src : List R) (uniq n : Nat) (raw : List R)
    (h : Ok ⟨none, none⟩ key uniq n) (h0 : ∀ k ∈ key, 0 ≤ k) (hr : raw.length = uniq + 1)
    (hs : src.length = n) :
    ∃ out avg, emaWeighted wt inv ⟨none, none⟩ key src n raw = some out ∧ out.length = n ∧
      (∀ i, i < n → out[i]? = some (some (if 1 ≤ keyAt key i then avg i else inv))) ∧
      Spec.Averages (keyAt key) (fun i => src.getD i 0) (fun _ _ => wt) avg n := by
  have hx : ∀ i, i < n → src[i]? = some (src.getD i 0) := fun i hi => getElem?_getD src i 0 (by omega)
  obtain ⟨ws, e1, e2, e3, _⟩ := firstValues_spec key src uniq n raw hr h.key hx
    fun i hi => ⟨h0 _ (List.mem_of_getElem? (h.key i hi)), h.key_le i hi⟩
  let init : Int → R := fun k => ws.getD k.toNat 0
  let f : R → Nat → R := fun c i => src.getD i 0 * (1 - wt) + c * wt
  obtain ⟨out, h1, h2, h3⟩ := guarded_from f init key (keyAt key) uniq n (some inv)
    (weightedCell wt ⟨none, none⟩ src) (fun c _ => c) ws
    ⟨e2, fun k _ hk => getElem?_getD ws k 0 (by omega)⟩
    h.key (fun i hi c => by
      show src[i]?.map _ = _
      rw [hx i hi]; rfl) h.key_le
  have hsnoc : ∀ i, (rowsBelow (keyAt key) (keyAt key i) (i + 1)).foldl f (init (keyAt key i)) =
      f ((rowsBelow (keyAt key) (keyAt key i) i).foldl f (init (keyAt key i))) i := by
    intro i
    rw [rowsBelow_succ, if_pos rfl, List.foldl_append]; rfl
  refine ⟨out, fun i => (rowsBelow (keyAt key) (keyAt key i) (i + 1)).foldl f (init (keyAt key i)),
    ?_, h2, fun i hi => ?_, fun i hi hk hfirst => ?_, fun i p hi hk hp hkp hbt => ?_⟩
  · unfold emaWeighted
    rw [e1, Option.bind_some]
    exact h1
  · rw [h3 i hi]
    split <;> rfl
  · dsimp only
    rw [hsnoc, rowsBelow_none _ _ _ hfirst, List.foldl_nil]
    show src.getD i 0 * (1 - wt) + ws.getD (keyAt key i).toNat 0 * wt = src.getD i 0
    rw [List.getD_eq_getElem?_getD (l := ws), e3 i hi hfirst, Option.getD_some]
    grind
  · dsimp only
    rw [hsnoc, rowsBelow_prev (keyAt key) (keyAt key i) p i hp hbt, hkp]

/-! ## Where the average is not one -/

/-- A reset does not start afresh: the first row of a series holds its own value, the row of a reset
`8 * (1 - 2^(-1)) = 4` instead of 8, because the average restarts from 0 at time 0. -/
theorem emaNormal_reset_false :
    emaNormal .i64 half (-1) ⟨none, some [false, true]⟩ [1, 1] [8, 8] [0, 1] 2 [0, 0] =
      some [some 8, some 4] := by decide +kernel

/-- Rows filtered out before the first included row of a group pull its average to 0: the first
included value 8 comes out as 4. -/
theorem emaNormal_filter_false :
    emaNormal .i64 half (-1) ⟨some [false, true], none⟩ [1, 1] [100, 8] [0, 1] 2 [0, 0] =
      some [some 0, some 4] := by decide +kernel

/-- With both masks the rows before the first included one show the first value of the group, which the
filter excludes. -/
theorem emaNormal_both_leaks :
    emaNormal .i64 half (-1) ⟨some [false, true], some [false, false]⟩ [1, 1] [100, 8] [0, 1] 2 [0, 0] =
      some [some 100, some 8] := by decide +kernel

/-- A negative key, harmless in the main loop, writes before the work space in the backward loop. -/
theorem emaNormal_negative_key :
    emaNormal .i64 half (-1) ⟨none, none⟩ [-1] [8] [0] 1 [0, 0] = none := by decide +kernel

/-- The hypotheses of the theorems hold for two groups and a row without one. -/
example : Ok ⟨none, none⟩ [1, 2, 1, 0] 2 4 ∧ (∀ k ∈ ([1, 2, 1, 0] : List Int), 0 ≤ k) :=
  ⟨⟨⟨nofun, nofun⟩, rfl, by decide⟩, by decide⟩

example : emaNormal .i64 half (-1) ⟨none, none⟩ [1, 2, 1, 0] [8, 5, 4, 7] [10, 11, 12, 13] 4 [9, 9, 9] =
    some [some 8, some 5, some 5, some (-1)] := by decide +kernel

example : emaWeighted (1 / 2 : Rat) (-1) ⟨none, none⟩ [1, 2, 1, 0] [8, 5, 4, 7] 4 [9, 9, 9] =
    some [some 8, some 5, some 6, some (-1)] := by decide +kernel

/-- The first row of every group passes this filter. -/
example : ∀ i, i < 4 → 1 ≤ keyAt [1, 2, 1, 0] i →
    (∀ j, j < i → keyAt [1, 2, 1, 0] j ≠ keyAt [1, 2, 1, 0] i) →
    ([true, true, false, false] : List Bool).getD i true = true := by decide

example : emaNormal .i64 half (-1) ⟨some [true, true, false, false], none⟩ [1, 2, 1, 0] [8, 5, 4, 7]
    [10, 11, 12, 13] 4 [9, 9, 9] = some [some 8, some 5, some 8, some (-1)] := by decide +kernel

end Riptide.Ema
