import Verif.Arrays.StackProps
/-! Assignment through a mask: `SetItem`, C69, and `PutMask`, C70. -/
namespace Riptide.Arrays
open Spec Riptide.Work

theorem store_get {α : Type} (V : Nat → Option α) (ws : List (Nat × α)) (l : List α)
    (h : ∀ w ∈ ws, w.1 < l.length ∧ some w.2 = V w.1) :
    ∃ l', store l ws = some l' ∧ l'.length = l.length ∧ ∀ (j : Nat), l'[j]? = if j ∈ ws.map Prod.fst then V j else l[j]? := by
  induction ws generalizing l with
  | nil => exact ⟨l, rfl, rfl, by simp⟩
  | cons w ws ih =>
    obtain ⟨hw1, hw2⟩ := h w (by simp)
    obtain ⟨l', h1, h2, h3⟩ := ih (l.set w.1 w.2) (fun v hv => by
      have := h v (by simp [hv]); simpa using this)
    refine ⟨l', ?_, by simpa using h2, ?_⟩
    · unfold store
      rw [List.foldlM_cons, if_pos hw1]
      exact h1
    · intro j
      rw [h3 j]
      by_cases hj : j ∈ ws.map Prod.fst
      · rw [if_pos hj, if_pos (by simp at hj ⊢; right; exact hj)]
      · rw [if_neg hj, List.getElem?_set]
        by_cases hjw : w.1 = j
        · subst hjw
          rw [if_pos rfl, if_pos hw1, if_pos (by simp), hw2]
        · rw [if_neg hjw, if_neg]
          rw [List.map_cons, List.mem_cons]
          intro hc
          rcases hc with hc | hc
          · exact hjw hc.symm
          · exact hj hc

theorem rank_succ (mask : List Bool) (j : Nat) (b : Bool) (h : mask[j]? = some b) :
    (mask.take (j + 1)).count true = (mask.take j).count true + if b then 1 else 0 := by
  rw [List.take_add_one, h, List.count_append]
  cases b <;> rfl

theorem rank_mono (mask : List Bool) {i j : Nat} (h : i ≤ j) : (mask.take i).count true ≤ (mask.take j).count true := by
  have : mask.take i = (mask.take j).take i := by rw [List.take_take, Nat.min_eq_left h]
  rw [this]
  exact List.Sublist.count_le _ (List.take_sublist _ _)

theorem copyMask_spec {α : Type} (mask : List Bool) (vals : List α) (i n : Nat) (hn : i + n ≤ mask.length)
    (hv : (mask.take (i + n)).count true ≤ vals.length) :
    ∃ ws, copyMask mask vals i ((mask.take i).count true) n = some ws ∧
      (∀ w ∈ ws, (i ≤ w.1 ∧ w.1 < i + n ∧ mask[w.1]? = some true) ∧ some w.2 = vals[(mask.take w.1).count true]?) ∧
      ∀ (j : Nat), i ≤ j → j < i + n → mask[j]? = some true → j ∈ ws.map Prod.fst := by
  induction n generalizing i with
  | zero => exact ⟨[], rfl, by simp, by intro j h1 h2; omega⟩
  | succ n ih =>
    have hm : mask[i]? = some mask[i] := List.getElem?_eq_getElem (by omega)
    have hr := rank_succ mask i _ hm
    obtain ⟨ws, h1, h2, h3⟩ := ih (i + 1) (by omega) (by rw [show i + 1 + n = i + (n + 1) by omega]; exact hv)
    unfold copyMask
    rw [hm, Option.bind_some]
    rcases hb : mask[i] with _ | _
    · rw [hb] at hm hr
      rw [if_neg (by simp)]
      rw [hr] at h1
      refine ⟨ws, h1, ?_, ?_⟩
      · intro w hw
        have := h2 w hw
        exact ⟨⟨by omega, by omega, this.1.2.2⟩, this.2⟩
      · intro j hj1 hj2 hj3
        by_cases hji : j = i
        · rw [hji, hm] at hj3; exact absurd hj3 (by simp)
        · exact h3 j (by omega) (by omega) hj3
    · rw [hb] at hm hr
      rw [if_pos rfl]
      rw [hr, if_pos rfl] at h1
      have hlt : (mask.take i).count true < vals.length := by
        have := rank_mono mask (show i + 1 ≤ i + (n + 1) by omega)
        rw [hr, if_pos rfl] at this
        omega
      rw [List.getElem?_eq_getElem hlt, Option.bind_some, h1, Option.map_some]
      refine ⟨_, rfl, ?_, ?_⟩
      · intro w hw
        rcases List.mem_cons.1 hw with hw | hw
        · subst hw
          exact ⟨⟨Nat.le_refl _, by omega, hm⟩, by rw [List.getElem?_eq_getElem hlt]⟩
        · have := h2 w hw
          exact ⟨⟨by omega, by omega, this.1.2.2⟩, this.2⟩
      · intro j hj1 hj2 hj3
        by_cases hji : j = i
        · rw [hji]; simp
        · rw [List.map_cons]; exact List.mem_cons_of_mem _ (h3 j (by omega) (by omega) hj3)

theorem copyScalar_spec {α : Type} (mask : List Bool) (v : α) (i n : Nat) (hn : i + n ≤ mask.length) :
    ∃ ws, copyScalar mask v i n = some ws ∧
      (∀ w ∈ ws, (i ≤ w.1 ∧ w.1 < i + n ∧ mask[w.1]? = some true) ∧ w.2 = v) ∧
      ∀ (j : Nat), i ≤ j → j < i + n → mask[j]? = some true → j ∈ ws.map Prod.fst := by
  induction n generalizing i with
  | zero => exact ⟨[], rfl, by simp, by intro j h1 h2; omega⟩
  | succ n ih =>
    have hm : mask[i]? = some mask[i] := List.getElem?_eq_getElem (by omega)
    obtain ⟨ws, h1, h2, h3⟩ := ih (i + 1) (by omega)
    unfold copyScalar
    rw [hm, Option.bind_some, h1, Option.map_some]
    rcases hb : mask[i] with _ | _
    · rw [hb] at hm
      rw [if_neg (by simp)]
      refine ⟨ws, rfl, ?_, ?_⟩
      · intro w hw
        have := h2 w hw
        exact ⟨⟨by omega, by omega, this.1.2.2⟩, this.2⟩
      · intro j hj1 hj2 hj3
        by_cases hji : j = i
        · rw [hji, hm] at hj3; exact absurd hj3 (by simp)
        · exact h3 j (by omega) (by omega) hj3
    · rw [hb] at hm
      rw [if_pos rfl]
      refine ⟨_, rfl, ?_, ?_⟩
      · intro w hw
        rcases List.mem_cons.1 hw with hw | hw
        · subst hw
          exact ⟨⟨Nat.le_refl _, by omega, hm⟩, rfl⟩
        · have := h2 w hw
          exact ⟨⟨by omega, by omega, this.1.2.2⟩, this.2⟩
      · intro j hj1 hj2 hj3
        by_cases hji : j = i
        · rw [hji]; simp
        · rw [List.map_cons]; exact List.mem_cons_of_mem _ (h3 j (by omega) (by omega) hj3)

/-! ### Sections -/

theorem section_facts (n t : Nat) (hn : n > part) (ht : t < sections n) :
    part * t + sectionLen n t = min n (part * (t + 1)) ∧ part * t < n := by
  unfold sections at ht
  unfold sectionLen sections part at *
  by_cases hl : t = (n + (16384 - 1)) / 16384 - 1
  · rw [if_pos hl]
    split <;> omega
  · rw [if_neg hl]; omega

theorem section_of (n j : Nat) (hn : n > part) (hj : j < n) :
    j / part < sections n ∧ part * (j / part) ≤ j ∧ j < part * (j / part) + sectionLen n (j / part) := by
  have h1 : j / part < sections n := by unfold sections part at *; omega
  have := section_facts n (j / part) hn h1
  have h2 : part * (j / part) ≤ j ∧ j < part * (j / part + 1) := by unfold part; omega
  exact ⟨h1, h2.1, by omega⟩

theorem counts_prefix (mask : List Bool) (n t : Nat) (hm : mask.length = n) (hn : n > part) (ht : t ≤ sections n) :
    (((List.range (sections n)).map fun u => sumMask mask (part * u) (sectionLen n u)).take t).sum =
      (mask.take (part * t)).count true := by
  rw [← List.map_take, List.take_range, Nat.min_eq_left ht]
  induction t with
  | zero => simp
  | succ t ih =>
    rw [List.range_succ, List.map_append, List.sum_append, ih (by omega)]
    have hf := section_facts n t hn (by omega)
    have h1 : mask.take (part * (t + 1)) = mask.take (part * t + sectionLen n t) := by
      rw [hf.1, Nat.min_comm, ← hm, ← List.take_take, List.take_length]
    rw [h1, List.take_add, List.count_append]
    simp [sumMask]

theorem counts_total (mask : List Bool) (n : Nat) (hm : mask.length = n) (hn : n > part) :
    ((List.range (sections n)).map fun u => sumMask mask (part * u) (sectionLen n u)).sum = mask.count true := by
  have h := counts_prefix mask n (sections n) hm hn (Nat.le_refl _)
  rw [List.take_of_length_le (by simp)] at h
  rw [h, List.take_of_length_le]
  rw [hm]; unfold sections part at *; omega

theorem gather {α : Type} (V : Nat → Option α) (mask : List Bool) (l : List α) (n : Nat) (hl : l.length = n) (hm : mask.length = n)
    (hn : n > part) (f : Nat → Option (List (Nat × α))) (calls : List Nat) (hp : calls.Perm (List.range (sections n)))
    (hf : ∀ (t : Nat), t < sections n → ∃ ws, f t = some ws ∧
      (∀ w ∈ ws, (part * t ≤ w.1 ∧ w.1 < part * t + sectionLen n t ∧ mask[w.1]? = some true) ∧ some w.2 = V w.1) ∧
      ∀ (j : Nat), part * t ≤ j → j < part * t + sectionLen n t → mask[j]? = some true → j ∈ ws.map Prod.fst) :
    ∃ l', ((calls.mapM f).bind fun ws => (store l ws.flatten).map fun l' => (true, l')) = some (true, l') ∧
      l'.length = l.length ∧ ∀ (j : Nat), j < l.length → l'[j]? = if mask[j]? = some true then V j else l[j]? := by
  have hlt : ∀ t ∈ calls, t < sections n := fun t ht => List.mem_range.1 (hp.mem_iff.1 ht)
  have hm' : calls.mapM f = some (calls.map fun t => (f t).getD []) := by
    apply mapM_some
    intro t ht
    obtain ⟨ws, h1, _⟩ := hf t (hlt t ht)
    rw [h1]; rfl
  obtain ⟨l', h1, h2, h3⟩ := store_get V (calls.map fun t => (f t).getD []).flatten l (by
    intro w hw
    obtain ⟨x, hx, hwx⟩ := List.mem_flatten.1 hw
    obtain ⟨t, ht, rfl⟩ := List.mem_map.1 hx
    obtain ⟨ws, h1, h2, _⟩ := hf t (hlt t ht)
    rw [h1] at hwx
    have := h2 w hwx
    have hs := section_facts n t hn (hlt t ht)
    exact ⟨by omega, this.2⟩)
  refine ⟨l', ?_, h2, ?_⟩
  · rw [hm', Option.bind_some, h1]; rfl
  · intro j hj
    rw [h3 j]
    by_cases hmj : mask[j]? = some true
    · rw [if_pos hmj, if_pos]
      obtain ⟨s1, s2, s3⟩ := section_of n j hn (by omega)
      obtain ⟨ws, w1, w2, w3⟩ := hf (j / part) s1
      obtain ⟨w, hw, he⟩ := List.mem_map.1 (w3 j s2 s3 hmj)
      refine List.mem_map.2 ⟨w, ?_, he⟩
      refine List.mem_flatten.2 ⟨ws, List.mem_map.2 ⟨j / part, hp.mem_iff.2 (List.mem_range.2 s1), by rw [w1]; rfl⟩, hw⟩
    · rw [if_neg hmj, if_neg]
      intro hc
      obtain ⟨w, hw, he⟩ := List.mem_map.1 hc
      obtain ⟨x, hx, hwx⟩ := List.mem_flatten.1 hw
      obtain ⟨t, ht, rfl⟩ := List.mem_map.1 hx
      obtain ⟨ws, w1, w2, _⟩ := hf t (hlt t ht)
      rw [w1] at hwx
      have := (w2 w hwx).1.2.2
      rw [he] at this
      exact hmj this

/-- C69, the part that is true: on contiguous arrays and under every schedule `SetItem` either assigns the values to the masked rows
in order, or (large arrays, one value) that value to all of them, or reports that it did nothing and did nothing. -/
theorem set_item_contiguous_partial {α : Type} (l : List α) (mask : List Bool) (vals : List α) (hm : mask.length = l.length)
    (workers : Nat) (nt : Bool) (calls1 calls2 : List Nat) (h1 : CountedWork workers (sections l.length) nt calls1)
    (h2 : CountedWork workers (sections l.length) nt calls2) :
    ∃ b l', setItem l mask vals l.length vals.length calls1 calls2 = some (b, l') ∧
      (b = false → l' = l) ∧
      (b = true ↔ mask.count true > 0 ∧ (mask.count true = vals.length ∨ (l.length > 16384 ∧ vals.length = 1))) ∧
      (b = true → mask.count true = vals.length → Assigned l mask vals l') ∧
      (b = true → mask.count true ≠ vals.length → ∃ v, vals = [v] ∧ Filled l mask v l') := by
  unfold setItem
  by_cases hn : l.length ≤ part
  · rw [if_pos hn]
    have hs : sumMask mask 0 l.length = mask.count true := by
      unfold sumMask; rw [List.drop_zero, List.take_of_length_le (by omega)]
    dsimp only
    rw [hs]
    by_cases hc : mask.count true > 0 ∧ mask.count true = vals.length
    · rw [if_pos hc]
      obtain ⟨ws, w1, w2, w3⟩ := copyMask_spec mask vals 0 l.length (by omega)
        (by rw [List.take_of_length_le (by omega)]; omega)
      rw [List.take_zero, List.count_nil] at w1
      obtain ⟨l', l1, l2, l3⟩ := store_get (fun j => vals[(mask.take j).count true]?) ws l (fun w hw => by
        have := w2 w hw; exact ⟨by omega, this.2⟩)
      refine ⟨true, l', ?_, by simp, ⟨fun _ => ⟨hc.1, .inl hc.2⟩, fun _ => rfl⟩, ?_, fun _ h => absurd hc.2 h⟩
      · rw [w1, Option.bind_some, l1]; rfl
      · intro _ _
        refine ⟨l2, ?_⟩
        intro j hj
        rw [l3 j]
        by_cases hmj : mask[j]? = some true
        · rw [if_pos hmj, if_pos (w3 j (by omega) (by omega) hmj)]
        · rw [if_neg hmj, if_neg]
          intro hk
          obtain ⟨w, hw, he⟩ := List.mem_map.1 hk
          have := (w2 w hw).1.2.2
          rw [he] at this
          exact hmj this
    · rw [if_neg hc]
      refine ⟨false, l, rfl, fun _ => rfl, ⟨by simp, ?_⟩, by simp, by simp⟩
      intro ⟨ha, hb⟩
      unfold part at hn
      rcases hb with hb | hb
      · exact absurd ⟨ha, hb⟩ hc
      · omega
  · rw [if_neg hn]
    have hn' : l.length > part := by omega
    have hrw : runWrites (sections l.length) (calls1.map fun t => (t, sumMask mask (part * t) (sectionLen l.length t))) =
        some (((List.range (sections l.length)).map fun u => sumMask mask (part * u) (sectionLen l.length u)).map some) := by
      have := runWrites_perm (l := (List.range (sections l.length)).map fun u => sumMask mask (part * u) (sectionLen l.length u))
        (ws := calls1.map fun t => (t, sumMask mask (part * t) (sectionLen l.length t)))
        (by rw [← range_zipIdx_swap]; exact h1.perm.map _)
      rw [List.length_map, List.length_range] at this
      exact this
    have hid : (((List.range (sections l.length)).map fun u => sumMask mask (part * u) (sectionLen l.length u)).map some).mapM id =
        some ((List.range (sections l.length)).map fun u => sumMask mask (part * u) (sectionLen l.length u)) := by
      rw [List.mapM_map, mapM_some (id ∘ some) id _ (fun a _ => rfl), List.map_id]
    rw [hrw, Option.bind_some, hid, Option.bind_some]
    dsimp only
    rw [counts_total mask l.length hm hn']
    by_cases hc : mask.count true > 0 ∧ mask.count true = vals.length
    · rw [if_pos hc]
      obtain ⟨l', g1, g2, g3⟩ := gather (fun j => vals[(mask.take j).count true]?) mask l l.length rfl hm hn'
        (fun t => copyMask mask vals (part * t)
          ((((List.range (sections l.length)).map fun u => sumMask mask (part * u) (sectionLen l.length u)).take t).sum)
          (sectionLen l.length t)) calls2 h2.perm (by
          intro t ht
          rw [counts_prefix mask l.length t hm hn' (by omega)]
          have hs := section_facts l.length t hn' ht
          exact copyMask_spec mask vals (part * t) (sectionLen l.length t) (by omega) (by
            have := rank_mono mask (show part * t + sectionLen l.length t ≤ mask.length by omega)
            rw [List.take_length] at this
            omega))
      exact ⟨true, l', g1, by simp, ⟨fun _ => ⟨hc.1, .inl hc.2⟩, fun _ => rfl⟩, fun _ _ => ⟨g2, g3⟩, fun _ h => absurd hc.2 h⟩
    · rw [if_neg hc]
      by_cases hd : mask.count true > 0 ∧ vals.length = 1
      · rw [if_pos hd]
        obtain ⟨v, rfl⟩ := List.length_eq_one_iff.1 hd.2
        rw [List.getElem?_cons_zero, Option.bind_some]
        obtain ⟨l', g1, g2, g3⟩ := gather (fun _ => some v) mask l l.length rfl hm hn'
          (fun t => copyScalar mask v (part * t) (sectionLen l.length t)) calls2 h2.perm (by
            intro t ht
            have hs := section_facts l.length t hn' ht
            obtain ⟨ws, w1, w2, w3⟩ := copyScalar_spec mask v (part * t) (sectionLen l.length t) (by omega)
            exact ⟨ws, w1, fun w hw => ⟨(w2 w hw).1, by rw [(w2 w hw).2]⟩, w3⟩)
        refine ⟨true, l', g1, by simp, ⟨fun _ => ⟨hd.1, .inr ⟨by unfold part at hn'; omega, hd.2⟩⟩, fun _ => rfl⟩,
          fun _ h => absurd ⟨hd.1, h⟩ hc, fun _ _ => ⟨v, rfl, g2, g3⟩⟩
      · rw [if_neg hd]
        refine ⟨false, l, rfl, fun _ => rfl, ⟨by simp, ?_⟩, by simp, by simp⟩
        intro ⟨ha, hb⟩
        rcases hb with hb | hb
        · exact absurd ⟨ha, hb⟩ hc
        · exact absurd ⟨ha, hb.2⟩ hd

/-- C69 is false of the code: no stride is looked at. Of memory `[1, 2, 3, 4]` the rows 0 and 2 are to become 8 and 9; the code writes
rows 0 and 1. -/
theorem set_item_ignores_stride :
    setItem [1, 2, 3, 4] [true, true] [8, 9] 2 2 [] [] = some (true, [8, 9, 3, 4]) ∧
      viewOf [8, 9, 3, 4] 2 2 = [some 8, some 3] := by decide

/-- Nor that of the mask: with memory `[F, T, F, F]` and stride two both rows are false, and yet the code writes row 1. -/
theorem set_item_ignores_mask_stride :
    setItem [1, 2] [false, true, false, false] [8] 2 1 [] [] = some (true, [1, 8]) ∧
    viewOf [false, true, false, false] 2 2 = [some false, some false] := by decide

example : setItem [1, 2, 3, 4] [true, false, true, false] [8, 9] 4 2 [] [] = some (true, [8, 2, 9, 4]) := by decide
example : CountedWork 1 (sections 20000) true [0, 1] := .direct rfl
example : Assigned [1, 2, 3, 4] [true, false, true, false] [8, 9] [8, 2, 9, 4] := by
  refine ⟨rfl, ?_⟩; decide

/-! ### PutMask -/

/-- C70, the part that is true: on contiguous arrays and under every schedule, row `j` becomes the converted value where the mask is
set and stays as it is elsewhere. -/
theorem put_mask_contiguous_partial {α β : Type} (conv : β → Option α) (g : β → α) (l : List α) (mask : List Bool) (vals : List β)
    (hm : mask.length = l.length) (hv : vals.length = l.length)
    (hc : ∀ (j : Nat) (v : β), mask[j]? = some true → vals[j]? = some v → conv v = some (g v))
    (workers : Nat) (nt : Bool) (par : Option (List Nat)) (h : ChunkSched workers l.length nt par) :
    ∃ l', putMask conv l mask vals l.length par = some l' ∧ l'.length = l.length ∧
      ∀ (j : Nat), j < l.length → l'[j]? = if mask[j]? = some true then vals[j]?.map g else l[j]? := by
  have hrow : ∀ (i : Nat), i < l.length →
      (mask[i]?.bind fun b => if b then vals[i]?.bind fun v => (conv v).map some else some none) =
        some (if mask[i]? = some true then vals[i]?.map g else none) := by
    intro i hi
    have h1 : mask[i]? = some mask[i] := List.getElem?_eq_getElem (by omega)
    have h2 : vals[i]? = some vals[i] := List.getElem?_eq_getElem (by omega)
    rcases hb : mask[i] with _ | _
    · rw [h1, hb]; rfl
    · have := hc i vals[i] (by rw [h1, hb]) h2
      rw [h1, hb, h2, Option.bind_some, if_pos rfl, Option.bind_some, this, if_pos rfl]; rfl
  obtain ⟨ws, hw, hp⟩ := elemWork_perm _ _ hrow h
  have hws : ∀ w ∈ ws, w.1 < l.length ∧ w.2 = if mask[w.1]? = some true then vals[w.1]?.map g else none := by
    intro w hwm
    obtain ⟨i, hi, rfl⟩ := List.mem_map.1 (hp.mem_iff.1 hwm)
    exact ⟨List.mem_range.1 hi, rfl⟩
  have hcov : ∀ (j : Nat), j < l.length → j ∈ ws.map Prod.fst := by
    intro j hj
    exact List.mem_map.2 ⟨_, hp.mem_iff.2 (List.mem_map.2 ⟨j, List.mem_range.2 hj, rfl⟩), rfl⟩
  unfold putMask
  rw [hw]
  rw [Option.bind_some]
  obtain ⟨l', s1, s2, s3⟩ := store_get (fun j => vals[j]?.map g) (ws.filterMap fun w => w.2.map fun v => (w.1, v)) l (by
    intro w hwm
    obtain ⟨x, hx, he⟩ := List.mem_filterMap.1 hwm
    obtain ⟨h1, h2⟩ := hws x hx
    rcases hx2 : x.2 with _ | v
    · rw [hx2] at he; exact absurd he (by simp)
    · rw [hx2] at he h2
      have he' : (x.1, v) = w := by simpa using he
      subst he'
      refine ⟨h1, ?_⟩
      by_cases hmx : mask[x.1]? = some true
      · rw [if_pos hmx] at h2; exact h2
      · rw [if_neg hmx] at h2; exact absurd h2 (by simp))
  refine ⟨l', s1, s2, ?_⟩
  intro j hj
  rw [s3 j]
  by_cases hmj : mask[j]? = some true
  · rw [if_pos hmj, if_pos]
    obtain ⟨w, hwm, he⟩ := List.mem_map.1 (hcov j hj)
    have h2 := (hws w hwm).2
    rw [he, if_pos hmj, List.getElem?_eq_getElem (by omega)] at h2
    refine List.mem_map.2 ⟨(w.1, g vals[j]), List.mem_filterMap.2 ⟨w, hwm, ?_⟩, he⟩
    rw [h2]; rfl
  · rw [if_neg hmj, if_neg]
    intro hk
    obtain ⟨w, hwm, he⟩ := List.mem_map.1 hk
    obtain ⟨x, hx, hxe⟩ := List.mem_filterMap.1 hwm
    have h2 := (hws x hx).2
    rcases hx2 : x.2 with _ | v
    · rw [hx2] at hxe; exact absurd hxe (by simp)
    · rw [hx2] at hxe h2
      have hxw : (x.1, v) = w := by simpa using hxe
      have : x.1 = j := by rw [← he, ← hxw]
      rw [this, if_neg hmj] at h2
      exact absurd h2 (by simp)

/-- C70 for integers: where the mask is set, the value arrives unchanged and an invalid one invalid. -/
theorem put_mask_ints_partial (d r : Int) (hd : 1 ≤ d ∧ d ≤ 10) (hr : 1 ≤ r ∧ r ≤ 10) (hh : holds d r = true) (l : List Int)
    (mask : List Bool) (vals : List Int) (hm : mask.length = l.length) (hv : vals.length = l.length)
    (hx : ∀ x ∈ vals, ValueOf d x) (workers : Nat) (nt : Bool) (par : Option (List Nat))
    (h : ChunkSched workers l.length nt par) :
    ∃ l', putMask (convDefault d r) l mask vals l.length par = some l' ∧ l'.length = l.length ∧
      ∀ (j : Nat), j < l.length → l'[j]? = if mask[j]? = some true then vals[j]?.map (carry d r) else l[j]? :=
  put_mask_contiguous_partial (convDefault d r) (carry d r) l mask vals hm hv
    (fun _ v _ hj => convDefault_carry (by omega) (by omega) hh (hx v (List.mem_of_getElem? hj)) (.inl (by omega))) workers nt par h

/-- C70 is false of the code: a false value put into an integer array becomes invalid. -/
theorem put_mask_false_becomes_invalid :
    putMask (convDefault 0 5) [7, 8, 9] [true, true, false] [0, 1, 0] 3 none = some [-2147483648, 1, 9] := by decide +kernel

/-- C70 is false of the code: the strides of values and mask are not looked at. The values with memory `[5, 6, 7, 8]` and stride two
are 5 and 7; the mask with memory `[F, T, F, F]` and stride two is false twice. -/
theorem put_mask_ignores_stride :
    putMask some [1, 2] [true, true] [5, 6, 7, 8] 2 none = some [5, 6] ∧ viewOf [5, 6, 7, 8] 2 2 = [some 5, some 7] ∧
    putMask some [1, 2] [false, true, false, false] [5, 6] 2 none = some [1, 6] ∧
    viewOf [false, true, false, false] 2 2 = [some false, some false] := by decide

example : putMask (convDefault 1 5) [7, 8, 9] [true, false, true] [-128, 1, 4] 3 none = some [-2147483648, 8, 4] := by decide +kernel
example : ChunkSched 4 3 false none := .direct (.inl (by decide))

end Riptide.Arrays
