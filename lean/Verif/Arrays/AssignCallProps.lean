import Verif.Arrays.AssignCallLemmas
/-! What `SetItem` does to memory (C158). -/
namespace Riptide.Nums.Assign
open Spec Riptide.Nums Riptide.Arrays Riptide.Binary Riptide.Work
open Riptide.Mask.Call.Spec (inC)

theorem frame_refl (M : Mem) (D : Int) (n : Nat) : Frame M D n M := ⟨fun _ _ => rfl, fun _ => rfl⟩

theorem bytes_eq {M M' : Mem} {p q : Int} {n : Nat} (h : ∀ (i : Nat), i < n → M' (p + i) = M (q + i)) : bytes M' p n = bytes M q n := by
  unfold bytes
  apply List.map_congr_left
  intro i hi
  exact h i (List.mem_range.1 hi)

/-- Bytes which are in no row are outside of a packed array. -/
theorem rest_out {M : Mem} {a : View} (h : Packed M a) {o : Int} (ho : ∀ p ∈ places a, o < p ∨ p + a.lay.item ≤ o) :
    o < a.base ∨ a.base + ((a.lay.item * a.lay.len : Nat) : Int) ≤ o := by
  by_cases hlt : o < a.base
  · exact .inl hlt
  right
  have : ∀ k, k ≤ a.lay.len → a.base + ((a.lay.item * k : Nat) : Int) ≤ o := by
    intro k
    induction k with
    | zero => intro _; simp; omega
    | succ k ih =>
      intro hk
      have := ih (by omega)
      have hp := ho _ (List.mem_of_getElem? (places_at h (k := k) (by omega)))
      rw [Nat.mul_add, Nat.mul_one]
      omega
  exact this _ (Nat.le_refl _)

theorem assigned_of {M M' : Mem} {arr mask vals : View} (h : Trio M arr mask vals) (hit : vals.lay.item = arr.lay.item) (hw : arr.writable = true)
    (hu : arr.unit = vals.unit) (ho : arr.swapped = vals.swapped) (hnum : vals.lay.len = (truth M mask).count true ∨ vals.lay.len = 1) {s : Nat → Nat}
    (hF : Frame M arr.base (arr.lay.item * arr.lay.len) M')
    (hr : ∀ (j : Nat), j < arr.lay.len → ∀ (q : Nat), q < arr.lay.item → M' (arr.base + ((arr.lay.item * j : Nat) : Int) + q) =
      (newRow M arr mask vals s j).elim (M (arr.base + ((arr.lay.item * j : Nat) : Int) + q)) (fun w => some (w q)))
    (hs : ∀ (j : Nat), j < arr.lay.len → (truth M mask)[j]? = some true →
      s j < vals.lay.len ∧ s j = if vals.lay.len = 1 then 0 else ((truth M mask).take j).count true) : Assigned M arr mask vals M' := by
  have hlen : ∀ {j : Nat} {p : Int}, (places arr)[j]? = some p → j < arr.lay.len := by
    intro j p hp
    obtain ⟨hj, _⟩ := List.getElem?_eq_some_iff.1 hp
    rw [places_length h.packedArr] at hj; exact hj
  refine ⟨hw, hu, hnum, ?_, ?_, ?_⟩
  · intro j p hp ht
    have hj := hlen hp
    obtain ⟨s1, s2⟩ := hs j hj ht
    rw [places_at h.packedArr hj, Option.some.injEq] at hp
    subst hp
    rw [← s2]
    refine ⟨_, places_at h.packedVals s1, ?_⟩
    unfold ordered
    rw [if_pos ho, hit]
    apply bytes_eq
    intro q hq
    rw [hr j hj q hq]
    unfold newRow
    rw [if_pos ht, Option.elim_some]
    refine byteAt_some (h.packedVals.there _ (by omega) ?_)
    have := mul_apart (item := arr.lay.item) s1
    rw [hit]; omega
  · intro j p hp ht
    have hj := hlen hp
    rw [places_at h.packedArr hj, Option.some.injEq] at hp
    subst hp
    apply bytes_eq
    intro q hq
    rw [hr j hj q hq]
    unfold newRow
    rw [if_neg (by rw [ht]; simp), Option.elim_none]
  · intro o hout
    exact hF.out o (rest_out h.packedArr hout)

theorem rank_lt {B : List Bool} {j n : Nat} (hj : B[j]? = some true) (hn : n = B.count true) : (B.take j).count true < n := by
  have hr := rank_succ B j _ hj
  have hl := (List.getElem?_eq_some_iff.1 hj).1
  have := rank_mono B (show j + 1 ≤ B.length by omega)
  rw [List.take_length, hr] at this
  simp at this
  omega

theorem counts_all {M : Mem} {mask : View} (h : Packed M mask) (hb : mask.lay.item = 1) {n : Nat} (hl : n = mask.lay.len) (hn : n > part) {workers : Nat} {nt : Bool}
    {calls : List Nat} (hc : CountedWork workers (sections n) nt calls) :
    countAll M mask.base n calls = some ((List.range (sections n)).map fun u => sumMask (truth M mask) (part * u) (sectionLen n u)) := by
  unfold countAll
  have hm : (calls.mapM fun (t : Nat) => (countAt M mask.base (part * t) (sectionLen n t)).map fun c => (t, c)) =
      some (calls.map fun t => (t, sumMask (truth M mask) (part * t) (sectionLen n t))) := by
    apply mapM_some
    intro t ht
    have hf := section_facts n t hn (List.mem_range.1 (hc.perm.mem_iff.1 ht))
    rw [count_at h hb (by omega)]; rfl
  rw [hm, Option.bind_some]
  have := runWrites_perm (l := (List.range (sections n)).map fun u => sumMask (truth M mask) (part * u) (sectionLen n u))
    (ws := calls.map fun t => (t, sumMask (truth M mask) (part * t) (sectionLen n t)))
    (by rw [← range_zipIdx_swap]; exact hc.perm.map _)
  rw [List.length_map, List.length_range] at this
  rw [this, Option.bind_some, List.mapM_map, mapM_some (id ∘ some) id _ (fun a _ => rfl), List.map_id]

/-- `SetItem` with three arrays which are packed and apart: for every schedule it assigns the values and nothing else and answers `True`, if their number is that of the masked
rows, or if there is one and more than 16384 rows; else it changes nothing and answers `False`. -/
theorem set_arrays {M : Mem} {arr mask vals : View} (h : Trio M arr mask vals) (hfit : setFits arr mask vals = true) (hw : arr.writable = true)
    (hu : arr.unit = vals.unit) (ho : arr.swapped = vals.swapped) {workers : Nat} {nt : Bool} {calls1 calls2 : List Nat}
    (h1 : CountedWork workers (sections arr.lay.len) nt calls1) (h2 : CountedWork workers (sections arr.lay.len) nt calls2) :
    (0 < (truth M mask).count true ∧ ((truth M mask).count true = vals.lay.len ∨ 16384 < arr.lay.len ∧ vals.lay.len = 1) →
      ∃ M', setArrays true M arr mask vals calls1 calls2 = .done M' ∧ Assigned M arr mask vals M') ∧
    (¬(0 < (truth M mask).count true ∧ ((truth M mask).count true = vals.lay.len ∨ 16384 < arr.lay.len ∧ vals.lay.len = 1)) →
      setArrays true M arr mask vals calls1 calls2 = .refused false) := by
  have hfit' := hfit
  unfold setFits at hfit'
  rw [decide_eq_true_iff] at hfit'
  obtain ⟨_, _, _, hit, _, _, _⟩ := hfit'
  have hlen : (truth M mask).length = arr.lay.len := by rw [truth_length h.packedMask, h.rows]
  have hrank : (truth M mask).count true = vals.lay.len → ∀ (j : Nat), j < arr.lay.len → (truth M mask)[j]? = some true →
      ((truth M mask).take j).count true < vals.lay.len ∧
        ((truth M mask).take j).count true = if vals.lay.len = 1 then 0 else ((truth M mask).take j).count true := by
    intro hn j _ ht
    have := rank_lt ht hn.symm
    refine ⟨this, ?_⟩
    split <;> omega
  have hstep : ∀ (s : Nat → Nat) M' (j : Nat), Frame M arr.base (arr.lay.item * arr.lay.len) M' → j < arr.lay.len →
      (fun M' (i : Nat) => some (over M' (arr.base + ((arr.lay.item * i : Nat) : Int)) arr.lay.item (newRow M arr mask vals s i))) M' j =
        some (over M' (arr.base + ((arr.lay.item * j : Nat) : Int)) arr.lay.item (newRow M arr mask vals s j)) := fun _ _ _ _ _ => rfl
  unfold setArrays
  rw [if_pos hfit]
  by_cases hn : arr.lay.len ≤ part
  · rw [if_pos hn]
    have hn' : arr.lay.len ≤ 16384 := hn
    unfold setSmall
    rw [count_at h.packedMask h.byte (by rw [h.rows]; omega)]
    have hsum : sumMask (truth M mask) 0 arr.lay.len = (truth M mask).count true := by
      unfold sumMask; rw [List.drop_zero, List.take_of_length_le (by omega)]
    simp only
    rw [hsum]
    refine ⟨?_, ?_⟩
    · intro ⟨c1, c2⟩
      have c3 : (truth M mask).count true = vals.lay.len := by omega
      rw [if_pos ⟨c1, c3⟩]
      obtain ⟨M', f1, f2, f3⟩ := fold_rows h.packedArr.there (hstep fun i => ((truth M mask).take i).count true) (List.range' 0 arr.lay.len) (by exact List.nodup_range')
        (by intro j hj; have := List.mem_range'_1.1 hj; omega) M (frame_refl _ _ _)
      have hfold := setRows_fold h hit c3 arr.lay.len 0 M (frame_refl _ _ _) (by omega)
      rw [List.take_zero, List.count_nil, f1] at hfold
      refine ⟨M', ?_, assigned_of h hit hw hu ho (.inl c3.symm) f2 ?_ (hrank c3)⟩
      · unfold setRows
        rw [hfold]; rfl
      · intro j hj q hq
        rw [f3 j hj q hq, if_pos (by rw [List.mem_range'_1]; omega)]
    · intro hc
      rw [if_neg]
      intro ⟨c1, c2⟩
      exact hc ⟨c1, .inl c2⟩
  · rw [if_neg hn]
    have hn' : arr.lay.len > part := by omega
    have hbig : 16384 < arr.lay.len := hn'
    unfold setLarge
    rw [if_neg (by simp), counts_all h.packedMask h.byte h.rows hn' h1]
    simp only
    rw [counts_total _ _ hlen hn']
    have hrows := section_rows arr.lay.len hn' h2.perm
    have hts : ∀ t ∈ calls2, t < sections arr.lay.len ∧ ∀ j ∈ List.range' (part * t) (sectionLen arr.lay.len t), j < arr.lay.len := by
      intro t ht
      have ht' := List.mem_range.1 (h2.perm.mem_iff.1 ht)
      refine ⟨ht', ?_⟩
      intro j hj
      have := List.mem_range'_1.1 hj
      have := section_facts arr.lay.len t hn' ht'
      omega
    have hfr : ∀ (s : Nat → Nat) M' (j : Nat) M'', Frame M arr.base (arr.lay.item * arr.lay.len) M' → j < arr.lay.len →
        some (over M' (arr.base + ((arr.lay.item * j : Nat) : Int)) arr.lay.item (newRow M arr mask vals s j)) = some M'' →
        Frame M arr.base (arr.lay.item * arr.lay.len) M'' := by
      intro s M' j M'' hF hj he
      rw [← Option.some.inj he]
      exact over_frame _ h.packedArr.there hF hj
    by_cases hc : 0 < (truth M mask).count true ∧ (truth M mask).count true = vals.lay.len
    · rw [if_pos hc]
      refine ⟨fun _ => ?_, fun hno => absurd ⟨hc.1, .inl hc.2⟩ hno⟩
      obtain ⟨M', f1, f2, f3⟩ := fold_rows h.packedArr.there (hstep fun i => ((truth M mask).take i).count true) _ (hrows.nodup_iff.2 List.nodup_range)
        (by intro j hj; exact List.mem_range.1 (hrows.mem_iff.1 hj)) M (frame_refl _ _ _)
      refine ⟨M', ?_, assigned_of h hit hw hu ho (.inl hc.2.symm) f2 ?_ (hrank hc.2)⟩
      · unfold setSections
        rw [sections_rows (k := sections arr.lay.len) (rows := fun t => List.range' (part * t) (sectionLen arr.lay.len t)) ?_ (hfr _) calls2 M hts (frame_refl _ _ _), f1]
        · rfl
        · intro M1 t ht hF
          have hf := section_facts arr.lay.len t hn' ht
          rw [counts_prefix _ _ _ hlen hn' (by omega)]
          unfold setRows
          exact setRows_fold h hit hc.2 _ _ M1 hF (by omega)
      · intro j hj q hq
        rw [f3 j hj q hq, if_pos (hrows.mem_iff.2 (List.mem_range.2 hj))]
    · rw [if_neg hc]
      by_cases hd : 0 < (truth M mask).count true ∧ vals.lay.len = 1
      · rw [if_pos hd]
        refine ⟨fun _ => ?_, fun hno => absurd ⟨hd.1, .inr ⟨hbig, hd.2⟩⟩ hno⟩
        obtain ⟨M', f1, f2, f3⟩ := fold_rows h.packedArr.there (hstep fun _ => 0) _ (hrows.nodup_iff.2 List.nodup_range)
          (by intro j hj; exact List.mem_range.1 (hrows.mem_iff.1 hj)) M (frame_refl _ _ _)
        refine ⟨M', ?_, assigned_of (s := fun _ => 0) h hit hw hu ho (.inr hd.2) f2 ?_ (fun j _ _ => ⟨by omega, by rw [if_pos hd.2]⟩)⟩
        · unfold fillSections
          rw [sections_rows (k := sections arr.lay.len) (rows := fun t => List.range' (part * t) (sectionLen arr.lay.len t)) ?_ (hfr _) calls2 M hts (frame_refl _ _ _), f1]
          · rfl
          · intro M1 t ht hF
            have hf := section_facts arr.lay.len t hn' ht
            unfold fillRows
            have : ∀ (js : List Nat), (∀ j ∈ js, j < arr.lay.len) → ∀ M2, Frame M arr.base (arr.lay.item * arr.lay.len) M2 →
                js.foldlM (fillRow arr.lay.item arr.base vals.base mask.base) M2 = js.foldlM (fun M' (i : Nat) =>
                  some (over M' (arr.base + ((arr.lay.item * i : Nat) : Int)) arr.lay.item (newRow M arr mask vals (fun _ => 0) i))) M2 := by
              intro js
              induction js with
              | nil => intro _ M2 _; rfl
              | cons j js ih =>
                intro hjs M2 hF2
                rw [List.foldlM_cons, List.foldlM_cons, fillRow_over h hit hd.2 hF2 (hjs j (by simp))]
                exact ih (fun i hi => hjs i (by simp [hi])) _ (over_frame _ h.packedArr.there hF2 (hjs j (by simp)))
            refine this _ ?_ M1 hF
            intro j hj
            have := List.mem_range'_1.1 hj
            omega
        · intro j hj q hq
          rw [f3 j hj q hq, if_pos (hrows.mem_iff.2 (List.mem_range.2 hj))]
      · rw [if_neg hd]
        refine ⟨?_, fun _ => rfl⟩
        intro ⟨c1, c2⟩
        rcases c2 with c2 | c2
        · exact absurd ⟨c1, c2⟩ hc
        · exact absurd ⟨c1, c2.2⟩ hd

/-- C158 for `SetItem`, the part that is true: arrays which are packed and apart, of the same order of bytes and unit, and one which may be written to. Under every schedule
`True` means that the values were assigned and nothing else was changed; with `False` nothing is. It is `True` exactly if the arrays are of one dimension, the same type and size,
the mask is boolean, a row is masked, and there are as many values as such rows (or one, for more than 16384 rows and with memory for the counts). -/
theorem set_item_partial {M : Mem} {arr mask vals : View} (h : Trio M arr mask vals) (hw : arr.writable = true) (hu : arr.unit = vals.unit) (ho : arr.swapped = vals.swapped)
    {v : Value} (hv : v = .array vals ∨ v = .made (some vals)) {workers : Nat} {nt : Bool} {calls1 calls2 : List Nat}
    (h1 : CountedWork workers (sections arr.lay.len) nt calls1) (h2 : CountedWork workers (sections arr.lay.len) nt calls2) :
    (arr.lay.dims.length = 1 ∧ 0 < arr.lay.item ∧ vals.lay.dims.length = 1 ∧ vals.lay.item = arr.lay.item ∧ arr.type = vals.type ∧ mask.type = 0 ∧
        0 < (truth M mask).count true ∧ ((truth M mask).count true = vals.lay.len ∨ 16384 < arr.lay.len ∧ vals.lay.len = 1) →
      ∃ M', setItem true M (.three (.array arr) (.array mask) v) calls1 calls2 = .done M' ∧ Assigned M arr mask vals M') ∧
    (¬(arr.lay.dims.length = 1 ∧ 0 < arr.lay.item ∧ vals.lay.dims.length = 1 ∧ vals.lay.item = arr.lay.item ∧ arr.type = vals.type ∧ mask.type = 0 ∧
        0 < (truth M mask).count true ∧ ((truth M mask).count true = vals.lay.len ∨ 16384 < arr.lay.len ∧ vals.lay.len = 1)) →
      setItem true M (.three (.array arr) (.array mask) v) calls1 calls2 = .refused false) := by
  have he : setItem true M (.three (.array arr) (.array mask) v) calls1 calls2 = setArrays true M arr mask vals calls1 calls2 := by
    rcases hv with rfl | rfl <;> rfl
  rw [he]
  refine ⟨?_, ?_⟩
  · intro ⟨c1, c2, c3, c4, c5, c6, c7⟩
    exact (set_arrays h (by unfold setFits; exact decide_eq_true ⟨c1, c2, c3, c4, c5, c6, h.rows⟩) hw hu ho h1 h2).1 c7
  · intro hc
    by_cases hf : setFits arr mask vals = true
    · refine (set_arrays h hf hw hu ho h1 h2).2 ?_
      intro h7
      unfold setFits at hf
      rw [decide_eq_true_iff] at hf
      exact hc ⟨hf.1, hf.2.1, hf.2.2.1, hf.2.2.2.1, hf.2.2.2.2.1, hf.2.2.2.2.2.1, h7⟩
    · unfold setArrays
      rw [if_neg hf]

/-- With fewer than three arguments an exception is raised; with something else than arrays, or without memory for the counts of more than 131072 sections, the answer is `False`
and nothing is changed. -/
theorem set_item_refuses (M : Mem) (room : Bool) (calls1 calls2 : List Nat) :
    setItem room M .few calls1 calls2 = .error ∧
    (∀ (g : Given) (v : View), setItem room M (.three .other g (.array v)) calls1 calls2 = .refused false ∧
      setItem room M (.three g .other (.array v)) calls1 calls2 = .refused false) ∧
    (∀ (arr mask vals : View), arr.lay.len > 131072 * 16384 → setItem false M (.three (.array arr) (.array mask) (.array vals)) calls1 calls2 = .refused false) := by
  refine ⟨rfl, fun g v => ⟨by cases g <;> rfl, by cases g <;> rfl⟩, ?_⟩
  intro arr mask vals hl
  show setArrays false M arr mask vals calls1 calls2 = _
  unfold setArrays
  by_cases hf : setFits arr mask vals = true
  · rw [if_pos hf, if_neg (by unfold part; omega)]
    unfold setLarge
    rw [if_pos ⟨by unfold sections part; omega, rfl⟩]
  · rw [if_neg hf]

end Riptide.Nums.Assign
