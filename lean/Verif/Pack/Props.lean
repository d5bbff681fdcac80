import Verif.Pack.Links
/-! **C20** (packing by chains, tiling) and **C22** (links). -/
namespace Riptide.Pack
open Riptide.Work Spec

/-! ## Tiling -/

theorem mem_rowsOf {keys : List Int} {b r : Nat} : r ∈ rowsOf keys b ↔ keys[r]? = some (b : Int) := by
  unfold rowsOf
  rw [List.mem_filter, List.mem_range]
  constructor
  · intro h; simpa using h.2
  · intro h; exact ⟨(List.getElem?_eq_some_iff.1 h).1, by simp [h]⟩

/-- **C20**, second half: exact slices tile the output whenever every key is a bin. -/
theorem tiled_of_slices {keys : List Int} {bins : Nat} {group first count : List (Option Int)}
    (h : Slices keys bins group first count) (hl : group.length = keys.length)
    (hk : ∀ (i : Nat) (k : Int), keys[i]? = some k → 0 ≤ k ∧ k < (bins : Int)) :
    Tiled bins keys.length first count := by
  have hin : ∀ b, b < bins → ∀ f c : Int, first[b]? = some (some f) → count[b]? = some (some c) →
      ∀ p : Nat, f ≤ (p : Int) → (p : Int) < f + c →
      ∃ r : Nat, group[p]? = some (some (r : Int)) ∧ keys[r]? = some (b : Int) := by
    intro b hb f c hf hc p h1 h2
    obtain ⟨f', e1, e2, e3⟩ := h b hb
    rw [hf] at e1
    rw [hc] at e2
    have e1 := Option.some.inj (Option.some.inj e1)
    have e2 := Option.some.inj (Option.some.inj e2)
    subst e1 e2
    have hj : (p - f).toNat < (rowsOf keys b).length := by omega
    obtain ⟨q, hq, hq'⟩ := e3 (p - f).toNat _ (List.getElem?_eq_getElem hj)
    have : q = p := by omega
    subst this
    exact ⟨_, hq', mem_rowsOf.1 (List.getElem_mem hj)⟩
  have hpos : ∀ i, i < keys.length → ∃ p : Nat, group[p]? = some (some (i : Int)) ∧
      ∃ b, b < bins ∧ ∃ f c : Int, first[b]? = some (some f) ∧ count[b]? = some (some c) ∧
        f ≤ (p : Int) ∧ (p : Int) < f + c := by
    intro i hi
    have hki := List.getElem?_eq_getElem hi
    have hr := hk i _ hki
    have hb : keys[i].toNat < bins := by omega
    obtain ⟨f, e1, e2, e3⟩ := h keys[i].toNat hb
    have hm : i ∈ rowsOf keys keys[i].toNat := mem_rowsOf.2 (by rw [hki]; congr 1; omega)
    obtain ⟨j, hj, hji⟩ := List.getElem_of_mem hm
    obtain ⟨p, hp, hp'⟩ := e3 j i (by rw [List.getElem?_eq_getElem hj, hji])
    exact ⟨p, hp', _, hb, f, _, e1, e2, by omega, by omega⟩
  let pos : Nat → Nat := fun i =>
    if hi : i < keys.length then Classical.choose (hpos i hi) else 0
  have hposi : ∀ i (hi : i < keys.length), pos i = Classical.choose (hpos i hi) := by
    intro i hi; simp only [pos, hi, dif_pos]
  have hperm : ((List.range keys.length).map pos).Perm (List.range keys.length) := by
    have := perm_range_of_nodup (l := (List.range keys.length).map pos) (n := keys.length)
      (nodup_map_inj (by
        intro a ha b hb he
        have ha := List.mem_range.1 ha
        have hb := List.mem_range.1 hb
        rw [hposi a ha, hposi b hb] at he
        have h1 := (Classical.choose_spec (hpos a ha)).1
        have h2 := (Classical.choose_spec (hpos b hb)).1
        rw [he, h2] at h1
        have := Option.some.inj (Option.some.inj h1)
        omega) List.nodup_range)
      (by
        intro p hp
        obtain ⟨i, hi, rfl⟩ := List.mem_map.1 hp
        have hi := List.mem_range.1 hi
        rw [hposi i hi]
        have h1 := (Classical.choose_spec (hpos i hi)).1
        have := (List.getElem?_eq_some_iff.1 h1).1
        omega) (by simp)
    exact this
  intro p hp
  obtain ⟨i, hi, hip⟩ := List.mem_map.1 (hperm.mem_iff.2 (List.mem_range.2 hp))
  have hi := List.mem_range.1 hi
  rw [hposi i hi] at hip
  obtain ⟨hg, b, hb, f, c, e1, e2, e3, e4⟩ := Classical.choose_spec (hpos i hi)
  rw [hip] at e3 e4
  refine ⟨b, ⟨hb, f, c, e1, e2, e3, e4⟩, ?_⟩
  rintro b' hb' ⟨f', c', d1, d2, d3, d4⟩
  obtain ⟨r, hr, hrk⟩ := hin b hb f c e1 e2 p e3 e4
  obtain ⟨r', hr', hrk'⟩ := hin b' hb' f' c' d1 d2 p d3 d4
  rw [hr] at hr'
  have : r = r' := by have := Option.some.inj (Option.some.inj hr'); omega
  subst this
  rw [hrk] at hrk'
  have := Option.some.inj hrk'
  omega

/-! ## Packing by chains -/

/-- The bins packed so far are `D`. -/
structure PkInv (keys : List Int) (bins : Nat) (s : Pk) (D : List Nat) : Prop where
  nodup : D.Nodup
  run : s.run = (D.flatMap (rowsOf keys)).map fun r : Nat => (r : Int)
  lf : s.first.length = bins + 1
  lc : s.count.length = bins + 1
  done : ∀ b ∈ D, ∃ f : Nat, s.first[b]? = some (some (f : Int)) ∧
    s.count[b]? = some (some ((rowsOf keys b).length : Int)) ∧
    ∀ (j r : Nat), (rowsOf keys b)[j]? = some r → s.run[f + j]? = some (r : Int)

theorem length_flatMap_rows (keys : List Int) (D : List Nat) (h : D.Nodup) :
    (D.flatMap (rowsOf keys)).length ≤ keys.length := by
  rw [List.length_flatMap]; exact sum_rowsOf_le keys D h

theorem addBin_inv {keys : List Int} {bins b i : Nat} {s : Pk} {D : List Nat} {v : Int}
    {nx : List (Option Int)} (hI : PkInv keys bins s D) (hb : b ≤ bins) (hD : b ∉ D)
    (hn : ∀ r : Nat, keys[r]? = some (b : Int) → ∃ v, nx[r]? = some (some v) ∧
      FirstFrom keys (fun i => (i : Int)) (-1) (b : Int) (r + 1) v)
    (hv : FirstFrom keys (fun i => (i : Int)) (-1) (b : Int) i v)
    (hi : rowsIn keys i keys.length b = rowsOf keys b) :
    ∃ s', addBin keys.length nx s b v = some s' ∧ PkInv keys bins s' (D ++ [b]) ∧
      ∀ b', b' ≠ b → s'.first[b']? = s.first[b']? ∧ s'.count[b']? = s.count[b']? := by
  have hnd : (D ++ [b]).Nodup := by
    rw [List.nodup_append]
    refine ⟨hI.nodup, by simp, ?_⟩
    intro x hx y hy he
    simp only [List.mem_singleton] at hy
    subst hy; subst he; exact hD hx
  have hrl : s.run.length = (D.flatMap (rowsOf keys)).length := by rw [hI.run]; simp
  have hroom : (rowsIn keys i keys.length b).length ≤ keys.length - s.run.length := by
    have := length_flatMap_rows keys _ hnd
    rw [List.flatMap_append, List.length_append, List.flatMap_singleton] at this
    rw [hi, hrl]; omega
  have hch := chain_rows hn keys.length i (keys.length - s.run.length) v (by omega) hv hroom
  rw [hi] at hch
  refine ⟨⟨s.run ++ (rowsOf keys b).map (fun r : Nat => (r : Int)),
    s.first.set b (some (s.run.length : Int)),
    s.count.set b (some (((rowsOf keys b).map (fun r : Nat => (r : Int))).length : Int))⟩,
    ?_, ?_, ?_⟩
  · unfold addBin
    rw [if_pos (by rw [hI.lf]; omega), hch]
    rfl
  · refine ⟨hnd, ?_, by simpa using hI.lf, by simpa using hI.lc, ?_⟩
    · simp only
      rw [hI.run, List.flatMap_append, List.map_append, List.flatMap_singleton]
    · intro b' hb'
      by_cases he : b' = b
      · subst he
        refine ⟨s.run.length, ?_, ?_, ?_⟩
        · simp only; rw [List.getElem?_set_self (by rw [hI.lf]; omega)]
        · simp only; rw [List.getElem?_set_self (by rw [hI.lc]; omega)]; simp
        · intro j r hj
          simp only
          rw [List.getElem?_append_right (by omega),
            show s.run.length + j - s.run.length = j by omega, List.getElem?_map, hj]
          rfl
      · have hbD : b' ∈ D := by
          rcases List.mem_append.1 hb' with h | h
          · exact h
          · exact absurd (by simpa using h) he
        obtain ⟨f, e1, e2, e3⟩ := hI.done b' hbD
        refine ⟨f, ?_, ?_, ?_⟩
        · simp only; rw [List.getElem?_set_ne (Ne.symm he)]; exact e1
        · simp only; rw [List.getElem?_set_ne (Ne.symm he)]; exact e2
        · intro j r hj
          have h3 := e3 j r hj
          simp only
          rw [List.getElem?_append_left (List.getElem?_eq_some_iff.1 h3).1]
          exact h3
  · intro b' hne
    simp only
    rw [List.getElem?_set_ne (Ne.symm hne), List.getElem?_set_ne (Ne.symm hne)]
    exact ⟨rfl, rfl⟩

theorem sort_length {keys : List Int} {bins : Nat} {s : Pk} {D : List Nat}
    (hI : PkInv keys bins s D) : (s.sort keys.length).length = keys.length := by
  have h1 : s.run.length ≤ keys.length := by
    rw [hI.run, List.length_map]; exact length_flatMap_rows keys D hI.nodup
  unfold Pk.sort
  simp
  omega

theorem slices_of_inv {keys : List Int} {bins : Nat} {s : Pk} {D : List Nat}
    (hI : PkInv keys bins s D)
    (hD : ∀ b, b ≤ bins → b ∉ D → rowsOf keys b = [] ∧ s.first[b]? = some (some (-1)) ∧
      s.count[b]? = some (some 0)) :
    Slices keys (bins + 1) (s.sort keys.length) s.first s.count := by
  intro b hb
  by_cases hm : b ∈ D
  · obtain ⟨f, e1, e2, e3⟩ := hI.done b hm
    refine ⟨(f : Int), e1, e2, ?_⟩
    intro j r hj
    refine ⟨f + j, by omega, ?_⟩
    have h3 := e3 j r hj
    unfold Pk.sort
    rw [List.getElem?_append_left (by rw [List.length_map]; exact (List.getElem?_eq_some_iff.1 h3).1),
      List.getElem?_map, h3]
    rfl
  · obtain ⟨h1, h2, h3⟩ := hD b (by omega) hm
    refine ⟨-1, h2, by rw [h1]; exact h3, ?_⟩
    intro j r hj
    rw [h1] at hj; simp at hj

theorem packInit_inv {keys : List Int} {bins : Nat} (h : 0 < keys.length) :
    ∃ s0, packInit keys.length bins = some s0 ∧ PkInv keys bins s0 [] ∧
      s0.first[0]? = some (some (-1)) ∧ s0.count[0]? = some (some 0) := by
  refine ⟨_, by unfold packInit; rw [if_neg (by omega)], ⟨by simp, by simp, by simp, by simp,
    by simp⟩, by simp, by simp⟩

/-- **C20** for `GroupByPack32` without links.  What is missing from the full statement is exactly
the guard: at least one row, fewer than 2^31 rows and every key in `[0, bins]`; outside it the code
reads and writes out of bounds (`groupByPack_out_of_bounds`, `groupByPack_empty`). -/
theorem groupByPack_slices_partial {keys : List Int} {bins : Nat} (h0 : 0 < keys.length)
    (hn : keys.length < 2 ^ 31)
    (hk : ∀ (i : Nat) (k : Int), keys[i]? = some k → 0 ≤ k ∧ k < ((bins + 1 : Nat) : Int)) :
    ∃ group first count : List (Option Int),
      groupByPack bins keys = some (group, first, count) ∧ group.length = keys.length ∧
      Slices keys (bins + 1) group first count ∧ Tiled (bins + 1) keys.length first count := by
  obtain ⟨nx, gp, h1, _, h3, h4, h5, _⟩ := link_back (strict := true) (store := fun i => (i : Int))
    (keys := keys) (stop := -1) (G := bins + 1) (fun _ => hk) keys.length 0 (by omega)
  have hfix : packFixup bins keys = some (nx, gp) := by
    unfold packFixup
    rw [if_neg (by omega), List.range_eq_range']
    exact h1
  obtain ⟨s0, hs0, hI0, _, _⟩ := packInit_inv (bins := bins) h0
  have loop : ∀ k, k ≤ bins + 1 → ∃ s, (List.range k).foldlM (headStep keys.length (nx, gp)) s0 =
      some s ∧ PkInv keys bins s (List.range k) := by
    intro k
    induction k with
    | zero => intro _; exact ⟨s0, rfl, hI0⟩
    | succ k ih =>
      intro hk'
      obtain ⟨s, hs, hI⟩ := ih (by omega)
      obtain ⟨v, hv, hfv⟩ := h4 k (by omega)
      obtain ⟨s', ha, hI', _⟩ := addBin_inv (nx := nx) (i := 0) hI (by omega) (by simp)
        (fun r hr => h5 r k (Nat.zero_le _) (by omega) hr) hfv (rowsIn_all keys k)
      refine ⟨s', ?_, ?_⟩
      · rw [List.range_succ, List.foldlM_append, hs]
        simp only [Option.bind_eq_bind, Option.bind_some, List.foldlM_cons, List.foldlM_nil]
        unfold headStep
        simp only [hv]
        rw [ha]; rfl
      · rw [List.range_succ]; exact hI'
  obtain ⟨s, hs, hI⟩ := loop (bins + 1) (Nat.le_refl _)
  have hsl := slices_of_inv hI (by intro b hb hbn; exact absurd (List.mem_range.2 (by omega)) hbn)
  refine ⟨_, _, _, ?_, sort_length hI, hsl, ?_⟩
  · unfold groupByPack
    rw [hfix]
    simp only [Option.bind_eq_bind, Option.bind_some]
    rw [hs0]
    simp only [Option.bind_some]
    rw [hs]
    rfl
  · exact tiled_of_slices hsl (sort_length hI) hk

/-- **C20** for `GroupByPack32` with links.  Guard (exactly what the code relies on without
checking): at least one row, fewer than 2^31 rows, bins numbered by first appearance, and correct
links. -/
theorem groupByPackNext_slices_partial {keys next : List Int} {bins : Nat} (h0 : 0 < keys.length)
    (hn : keys.length < 2 ^ 31) (hnum : Numbered keys bins)
    (hnext : ∀ i, i < keys.length → ∃ v, next[i]? = some v ∧ NextLink keys (-1) i v) :
    ∃ group first count : List (Option Int),
      groupByPackNext bins keys next = some (group, first, count) ∧ group.length = keys.length ∧
      Slices keys (bins + 1) group first count ∧ Tiled (bins + 1) keys.length first count := by
  obtain ⟨hk, hex, hord⟩ := hnum
  have hlink : ∀ b : Nat, ∀ r : Nat, keys[r]? = some (b : Int) →
      ∃ v, (next.map some)[r]? = some (some v) ∧
        FirstFrom keys (fun i => (i : Int)) (-1) (b : Int) (r + 1) v := by
    intro b r hr
    obtain ⟨v, hv, hl⟩ := hnext r (List.getElem?_eq_some_iff.1 hr).1
    refine ⟨v, by rw [List.getElem?_map, hv]; rfl, ?_⟩
    rcases hl with ⟨j, e1, e2, e3, e4, e5⟩ | ⟨e1, e2⟩
    · exact .inl ⟨j, e1, e2, e3, by rw [e4, hr], fun m h1 h2 => by
        have := e5 m (by omega) h2; rwa [hr] at this⟩
    · exact .inr ⟨e1, fun j h1 h2 => by have := e2 j (by omega) h2; rwa [hr] at this⟩
  -- the slice of a bin whose first row is `i`
  have hhead : ∀ (b i : Nat), keys[i]? = some (b : Int) →
      (∀ m, m < i → keys[m]? ≠ some (b : Int)) →
      FirstFrom keys (fun i => (i : Int)) (-1) (b : Int) i (i : Int) ∧
        rowsIn keys i keys.length b = rowsOf keys b := by
    intro b i hi hm
    have hil := (List.getElem?_eq_some_iff.1 hi).1
    refine ⟨.inl ⟨i, rfl, Nat.le_refl _, hil, hi, fun m h1 h2 => by omega⟩, ?_⟩
    rw [← rowsIn_all, rowsIn_eq_cons (Nat.zero_le i) hil hi (fun m _ h2 => hm m h2),
      rowsIn_eq_cons (Nat.le_refl i) hil hi (fun m h1 h2 => by omega)]
  obtain ⟨s0, hs0, hI0, hf0, hc0⟩ := packInit_inv (bins := bins) h0
  -- bin 0 first
  have hstart : ∃ s1 D1, packStart keys (next.map some) s0 = some s1 ∧ PkInv keys bins s1 D1 ∧
      ((keys[0]? = some 0 ∧ D1 = [0]) ∨ (keys[0]? ≠ some 0 ∧ D1 = [] ∧
        s1.first[0]? = some (some (-1)) ∧ s1.count[0]? = some (some 0))) := by
    unfold packStart
    by_cases hk0 : keys[0]? = some 0
    · rw [if_pos hk0]
      obtain ⟨h1, h2⟩ := hhead 0 0 (by exact_mod_cast hk0) (by intro m hm; omega)
      obtain ⟨s', ha, hI', _⟩ := addBin_inv (nx := next.map some) (i := 0) (v := 0) hI0
        (Nat.zero_le _) (by simp) (hlink 0) (by exact_mod_cast h1) h2
      exact ⟨s', [0], ha, hI', .inl ⟨hk0, rfl⟩⟩
    · rw [if_neg hk0]
      exact ⟨s0, [], rfl, hI0, .inr ⟨hk0, rfl, hf0, hc0⟩⟩
  obtain ⟨s1, D1, hs1, hI1, hD1⟩ := hstart
  have hD1' : ∀ b ∈ D1, b = 0 := by
    intro b hb
    rcases hD1 with ⟨_, rfl⟩ | ⟨_, rfl, _⟩
    · simpa using hb
    · simp at hb
  -- the scan
  have scan : ∀ i, i ≤ keys.length → ∃ s L, (List.range i).foldlM (scanHeads keys (next.map some))
      (s1, 1) = some (s, L) ∧ 1 ≤ L ∧ L ≤ bins + 1 ∧
      PkInv keys bins s (D1 ++ List.range' 1 (L - 1)) ∧
      (∀ b : Nat, L ≤ b → ∀ m, m < i → keys[m]? ≠ some (b : Int)) ∧
      (∀ b : Nat, 1 ≤ b → b < L → ∃ m, m < i ∧ keys[m]? = some (b : Int)) ∧
      s.first[0]? = s1.first[0]? ∧ s.count[0]? = s1.count[0]? := by
    intro i
    induction i with
    | zero =>
      intro _
      exact ⟨s1, 1, rfl, by omega, by omega, by simpa using hI1, by intro b _ m hm; omega,
        by intro b h1 h2; omega, rfl, rfl⟩
    | succ i ih =>
      intro hi
      obtain ⟨s, L, hs, hL1, hL2, hI, hno, hyes, hz1, hz2⟩ := ih (by omega)
      have hil : i < keys.length := by omega
      have hki := List.getElem?_eq_getElem hil
      have hkr := hk i _ hki
      rw [List.range_succ, List.foldlM_append, hs]
      simp only [Option.bind_eq_bind, Option.bind_some, List.foldlM_cons, List.foldlM_nil]
      by_cases hkL : keys[i] = (L : Int)
      · have hLb : L ≤ bins := by omega
        obtain ⟨h1, h2⟩ := hhead L i (by rw [hki, hkL]) (fun m hm => hno L (Nat.le_refl _) m hm)
        obtain ⟨s', ha, hI', hoth⟩ := addBin_inv (nx := next.map some) hI hLb (by
          intro hm
          rcases List.mem_append.1 hm with h | h
          · have := hD1' L h; omega
          · have := List.mem_range'_1.1 h; omega) (hlink L) h1 h2
        have hstep : scanHeads keys (next.map some) (s, L) i = some (s', L + 1) := by
          unfold scanHeads
          rw [hki]
          simp only
          rw [if_pos hkL, ha]
          rfl
        rw [hstep]
        have h00 := hoth 0 (by omega)
        refine ⟨s', L + 1, rfl, by omega, by omega, ?_, ?_, ?_, by rw [h00.1, hz1],
          by rw [h00.2, hz2]⟩
        · have : List.range' 1 (L + 1 - 1) = List.range' 1 (L - 1) ++ [L] := by
            rw [show L + 1 - 1 = (L - 1) + 1 by omega, List.range'_concat]
            congr 2; omega
          rw [this, ← List.append_assoc]
          exact hI'
        · intro b hb m hm
          by_cases hmi : m = i
          · subst hmi; rw [hki, hkL]; intro h; have := Option.some.inj h; omega
          · exact hno b (by omega) m (by omega)
        · intro b hb1 hb2
          by_cases hbL : b = L
          · exact ⟨i, by omega, by rw [hki, hkL, hbL]⟩
          · obtain ⟨m, hm, hmk⟩ := hyes b hb1 (by omega)
            exact ⟨m, by omega, hmk⟩
      · have hstep : scanHeads keys (next.map some) (s, L) i = some (s, L) := by
          unfold scanHeads
          rw [hki]
          simp only
          rw [if_neg hkL]
        rw [hstep]
        refine ⟨s, L, rfl, hL1, hL2, hI, ?_, ?_, hz1, hz2⟩
        · intro b hb m hm
          by_cases hmi : m = i
          · subst hmi
            intro h
            -- a row of a bin after `L` needs an earlier row of bin `L`
            have back : ∀ (d b m' : Nat), b = L + d → m' ≤ m → keys[m']? = some (b : Int) →
                ∃ m'', m'' ≤ m' ∧ keys[m'']? = some (L : Int) := by
              intro d
              induction d with
              | zero => intro b m hb _ hmb; exact ⟨m, Nat.le_refl _, by rw [hmb, hb]; rfl⟩
              | succ d ihd =>
                intro b m hb hmi hmb
                obtain ⟨m2, hm2, hm2k⟩ := hord m (L + d) (by omega) (by rw [hmb, hb]; congr 1)
                obtain ⟨m', hm', hmk'⟩ := ihd (L + d) m2 rfl (by omega) hm2k
                exact ⟨m', by omega, hmk'⟩
            obtain ⟨m', hm', hmk'⟩ := back (b - L) b m (by omega) (Nat.le_refl _) h
            by_cases hmm : m' = m
            · subst hmm; rw [hki] at hmk'; exact hkL (Option.some.inj hmk')
            · exact hno L (Nat.le_refl _) m' (by omega) hmk'
          · exact hno b hb m (by omega)
        · intro b hb1 hb2
          obtain ⟨m, hm, hmk⟩ := hyes b hb1 hb2
          exact ⟨m, by omega, hmk⟩
  obtain ⟨s, L, hs, hL1, hL2, hI, hno, _, hz1, hz2⟩ := scan keys.length (Nat.le_refl _)
  have hL : L = bins + 1 := by
    rcases Nat.lt_or_ge L (bins + 1) with h | h
    · obtain ⟨i, hi⟩ := hex L hL1 (by omega)
      exact absurd hi (hno L (Nat.le_refl _) i (List.getElem?_eq_some_iff.1 hi).1)
    · omega
  subst hL
  -- bin 0 last
  have hfin : ∃ s3 D3, packFinish keys (next.map some) s = some s3 ∧ PkInv keys bins s3 D3 ∧
      ∀ b, b ≤ bins → b ∉ D3 → rowsOf keys b = [] ∧ s3.first[b]? = some (some (-1)) ∧
        s3.count[b]? = some (some 0) := by
    unfold packFinish
    rcases hD1 with ⟨hk0, rfl⟩ | ⟨hk0, rfl, hf1, hc1⟩
    · rw [if_pos hk0]
      refine ⟨s, _, rfl, hI, ?_⟩
      intro b hb hbn
      exfalso
      apply hbn
      by_cases hb0 : b = 0
      · subst hb0; simp
      · exact List.mem_append_right _ (List.mem_range'_1.2 (by omega))
    · rw [if_neg hk0]
      cases hfd : (List.range keys.length).find? (fun i => keys[i]? == some 0) with
      | none =>
        refine ⟨s, _, rfl, hI, ?_⟩
        intro b hb hbn
        have hb0 : b = 0 := by
          rcases Nat.eq_zero_or_pos b with h | h
          · exact h
          · exact absurd (List.mem_append_right _ (List.mem_range'_1.2 (by omega))) hbn
        subst hb0
        refine ⟨?_, by rw [hz1, hf1], by rw [hz2, hc1]⟩
        unfold rowsOf
        rw [List.filter_eq_nil_iff]
        intro i hi
        have := List.find?_eq_none.1 hfd i hi
        simpa using this
      | some i =>
        obtain ⟨h1, h2, h3⟩ := List.find?_range_eq_some.1 hfd
        have hi0 : keys[i]? = some ((0 : Nat) : Int) := by simpa using h1
        obtain ⟨g1, g2⟩ := hhead 0 i hi0 (by
          intro m hm he
          have := h3 m hm
          rw [he] at this
          simp at this)
        obtain ⟨s', ha, hI', _⟩ := addBin_inv (nx := next.map some) hI (Nat.zero_le _) (by
          intro hm
          rcases List.mem_append.1 hm with h | h
          · simp at h
          · have := List.mem_range'_1.1 h; omega) (hlink 0) g1 g2
        refine ⟨s', _, ha, hI', ?_⟩
        intro b hb hbn
        exfalso
        apply hbn
        by_cases hb0 : b = 0
        · subst hb0; simp
        · exact List.mem_append_left _ (List.mem_append_right _ (List.mem_range'_1.2 (by omega)))
  obtain ⟨s3, D3, hs3, hI3, hD3⟩ := hfin
  have hsl := slices_of_inv hI3 hD3
  refine ⟨_, _, _, ?_, sort_length hI3, hsl, tiled_of_slices hsl (sort_length hI3)
    (fun i k h => by have := hk i k h; omega)⟩
  unfold groupByPackNext
  rw [if_neg (by omega)]
  simp only [hs0, hs1, hs, hs3, Option.bind_eq_bind, Option.bind_some]

example : groupByPack 2 [1, 0, 2, 1, 0] =
    some ([some 1, some 4, some 0, some 3, some 2], [some 0, some 2, some 4],
      [some 2, some 2, some 1]) := by decide
example : groupByPackNext 2 [1, 0, 2, 1, 0] [3, 4, -1, -1, -1] =
    some ([some 0, some 3, some 2, some 1, some 4], [some 3, some 0, some 2],
      [some 2, some 2, some 1]) := by decide
/-- The guards can be met. -/
example : Numbered [1, 0, 2, 1, 0] 2 ∧
    ∀ i, i < 5 → ∃ v, [3, 4, -1, -1, -1][i]? = some v ∧ NextLink [1, 0, 2, 1, 0] (-1) i v := by
  refine ⟨⟨?_, ?_, ?_⟩, ?_⟩
  · intro i k h
    have := (List.getElem?_eq_some_iff.1 h).1
    match i, this with
    | 0, _ | 1, _ | 2, _ | 3, _ | 4, _ => simp at h; omega
  · intro b h1 h2
    rcases (by omega : b = 1 ∨ b = 2) with rfl | rfl
    · exact ⟨0, rfl⟩
    · exact ⟨2, rfl⟩
  · intro i b hb h
    have := (List.getElem?_eq_some_iff.1 h).1
    match i, this with
    | 0, _ | 1, _ | 3, _ | 4, _ => simp at h; omega
    | 2, _ => simp at h; exact ⟨0, by omega, by simp; omega⟩
  · intro i hi
    match i, hi with
    | 0, _ => exact ⟨3, rfl, .inl ⟨3, rfl, by decide, by decide, rfl, by
        intro m h1 h2; rcases (by omega : m = 1 ∨ m = 2) with rfl | rfl <;> simp⟩⟩
    | 1, _ => exact ⟨4, rfl, .inl ⟨4, rfl, by decide, by decide, rfl, by
        intro m h1 h2; rcases (by omega : m = 2 ∨ m = 3) with rfl | rfl <;> simp⟩⟩
    | 2, _ => exact ⟨-1, rfl, .inr ⟨rfl, by
        intro j h1 h2
        have h2 : j < 5 := h2
        rcases (by omega : j = 3 ∨ j = 4) with rfl | rfl <;> simp⟩⟩
    | 3, _ => exact ⟨-1, rfl, .inr ⟨rfl, by
        intro j h1 h2
        have h2 : j < 5 := h2
        obtain rfl : j = 4 := by omega
        simp⟩⟩
    | 4, _ => exact ⟨-1, rfl, .inr ⟨rfl, by
        intro j h1 h2
        have h2 : j < 5 := h2
        omega⟩⟩

/-- A key above the number of bins writes outside the group array. -/
theorem groupByPack_out_of_bounds : groupByPack 1 [0, 3] = none := by decide
/-- So does a negative key. -/
theorem groupByPack_negative_key : groupByPack 1 [-1] = none := by decide
/-- Without rows the first statement writes outside `iGroup`. -/
theorem groupByPack_empty (bins : Nat) : groupByPack bins [] = none := by
  simp [groupByPack, packFixup, packInit]
/-- With links, bins that are not numbered by first appearance are not packed: the entries of bin 2
are never written. -/
theorem groupByPackNext_order : groupByPackNext 2 [2, 1] [-1, -1] =
    some ([some 1, none], [some (-1), some 0, none], [some 0, some 1, none]) := by decide
/-- With counts that are not those of the keys, `GroupFromBinCount` writes outside `iGroup`. -/
theorem groupFromBinCount_wrong_counts :
    groupFromBinCount [1] [5, 0] (bandJob [1] [5, 0] (0, 2)) = none := by decide
/-- Rows whose key is not a bin leave the end of `iGroup` unwritten. -/
theorem groupFromBinCount_tail :
    groupFromBinCount [0, 7, 0] [2] (bandJob [0, 7, 0] [2] (0, 1)) =
      some ([some 0, some 2, none], [some 0]) := by decide

example : ∃ group, groupFromBinCount [1, 0, 1] (trueCounts [1, 0, 1] 2)
      (([List.range 1].flatten.map (bandJobs [1, 0, 1] (trueCounts [1, 0, 1] 2)
        (packBands 3 2 4 true))).flatten) = some group ∧
    group = ([some 1, some 0, some 2], [some 0, some 1]) :=
  ⟨_, by decide, rfl⟩

/-- The hypotheses of `groupFromBinCount_slices` and `binCountPack_slices` can be met. -/
example : CountedWork 0 (packBands 3 2 4 true).length true (List.range 1) ∧
    Interleaves ((List.range 1).map (bandJobs [1, 0, 1] (trueCounts [1, 0, 1] 2)
      (packBands 3 2 4 true)))
      (((List.range 1).map (bandJobs [1, 0, 1] (trueCounts [1, 0, 1] 2)
        (packBands 3 2 4 true))).flatten) :=
  ⟨.direct rfl, Interleaves.serial _⟩
example : binCountPack [1, 0, 1] 2 2 [0, 1] (packJob [1, 0, 1] 2 (segmentBins 3 2 31) 1 ++
    packJob [1, 0, 1] 2 (segmentBins 3 2 31) 0) =
    some (some ([some 1, some 2], [some 1, some 0, some 2], [some 0, some 1])) := by decide

/-! ## C22 -/

/-- The full property of `MakeiNext`: every row gets the right link, whatever the width of the
keys. -/
def NextCorrect : Prop := ∀ (t : IT) (bins : Nat) (keys : List Int), t.signed = true →
  0 < t.bits → (∀ k ∈ keys, t.InRange k) → ∃ out, makeNextKey t 0 bins keys = some out ∧
    ∀ i, i < keys.length → ∃ v, out[i]? = some (some v) ∧ NextLink keys t.inv i v

theorem wrap_row {t : IT} (hs : t.signed = true) (h : 0 < t.bits) {n i : Nat}
    (hn : (n : Int) ≤ (2 : Int) ^ (t.bits - 1)) (hi : i < n) : t.wrap (i : Int) = (i : Int) := by
  apply IT.wrap_of_inRange t h
  unfold IT.InRange IT.lo IT.hi
  rw [if_pos hs, if_pos hs]
  have := IT.pow_pos (t.bits - 1)
  omega

/-- **C22**, next rows: correct for every row whose group is in `[0, bins]`, as long as the row
numbers fit the type of the keys.  Missing from the full statement: more rows than that
(`makeNextKey_int8_wraps`), and rows of other groups, whose entry is never written
(`makeNextKey_unwritten`). -/
theorem makeNextKey_next_partial {t : IT} (hs : t.signed = true) (hb : 0 < t.bits) (bins : Nat)
    (keys : List Int) (hn : (keys.length : Int) ≤ (2 : Int) ^ (t.bits - 1)) :
    ∃ out, makeNextKey t 0 bins keys = some out ∧ out.length = keys.length ∧
      (∀ (i : Nat) (k : Int), keys[i]? = some k → 0 ≤ k → k ≤ (bins : Int) →
        ∃ v, out[i]? = some (some v) ∧ NextLink keys t.inv i v) ∧
      (∀ (i : Nat) (k : Int), keys[i]? = some k → ¬ (0 ≤ k ∧ k ≤ (bins : Int)) →
        out[i]? = some none) := by
  obtain ⟨nx, gp, h1, h2, _, _, h5, h6⟩ := link_back (strict := false)
    (store := fun i => t.wrap (i : Int)) (keys := keys) (stop := t.inv) (G := bins + 1)
    (by simp) keys.length 0 (by omega)
  refine ⟨nx, ?_, h2, ?_, ?_⟩
  · unfold makeNextKey
    simp only [if_true]
    rw [List.range_eq_range', h1]; rfl
  · intro i k hk h0 hkb
    have hcast : ((k.toNat : Nat) : Int) = k := by omega
    obtain ⟨v, hv, hf⟩ := h5 i k.toNat (Nat.zero_le _) (by omega) (by rw [hk, hcast])
    refine ⟨v, hv, ?_⟩
    rw [hcast] at hf
    rcases hf with ⟨j, e1, e2, e3, e4, e5⟩ | ⟨e1, e2⟩
    · refine .inl ⟨j, by rw [e1]; exact wrap_row hs hb hn e3, by omega, e3, by rw [e4, hk], ?_⟩
      intro m h7 h8; rw [hk]; exact e5 m (by omega) h8
    · refine .inr ⟨e1, ?_⟩
      intro j h7 h8; rw [hk]; exact e2 j (by omega) h8
  · intro i k hk hr
    exact h6 i (List.getElem?_eq_some_iff.1 hk).1 (.inr ⟨k, hk, by omega⟩)

/-- **C22**, previous rows, under the same guard. -/
theorem makeNextKey_prev_partial {t : IT} (hs : t.signed = true) (hb : 0 < t.bits) (mode : Int)
    (hm : mode ≠ 0) (bins : Nat) (keys : List Int)
    (hn : (keys.length : Int) ≤ (2 : Int) ^ (t.bits - 1)) :
    ∃ out, makeNextKey t mode bins keys = some out ∧ out.length = keys.length ∧
      (∀ (i : Nat) (k : Int), keys[i]? = some k → 0 ≤ k → k ≤ (bins : Int) →
        ∃ v, out[i]? = some (some v) ∧ PrevLink keys t.inv i v) ∧
      (∀ (i : Nat) (k : Int), keys[i]? = some k → ¬ (0 ≤ k ∧ k ≤ (bins : Int)) →
        out[i]? = some none) := by
  obtain ⟨nx, gp, h1, h2, _, _, h5, h6⟩ := link_fwd
    (store := fun i => t.wrap (i : Int)) (keys := keys) (stop := t.inv) (G := bins + 1)
    keys.length (Nat.le_refl _)
  refine ⟨nx, ?_, h2, ?_, ?_⟩
  · unfold makeNextKey
    simp only [hm, if_false]
    rw [h1]; rfl
  · intro i k hk h0 hkb
    have hcast : ((k.toNat : Nat) : Int) = k := by omega
    have hil := (List.getElem?_eq_some_iff.1 hk).1
    obtain ⟨v, hv, hf⟩ := h5 i k.toNat hil (by omega) (by rw [hk, hcast])
    refine ⟨v, hv, ?_⟩
    rw [hcast] at hf
    rcases hf with ⟨j, e1, e2, e3, e4⟩ | ⟨e1, e2⟩
    · refine .inl ⟨j, by rw [e1]; exact wrap_row hs hb hn (by omega), by omega, by rw [e3, hk], ?_⟩
      intro m h7 h8; rw [hk]; exact e4 m h7 h8
    · refine .inr ⟨e1, ?_⟩
      intro j h7; rw [hk]; exact e2 j h7
  · intro i k hk hr
    exact h6 i (List.getElem?_eq_some_iff.1 hk).1 (.inr ⟨k, hk, by omega⟩)

example : makeNextKey .i8 0 2 [1, 2, 1, 0, 2] =
    some [some 2, some 4, some (-128), some (-128), some (-128)] := by decide
example : makeNextKey .i8 1 2 [1, 2, 1, 0, 2] =
    some [some (-128), some (-128), some 0, some (-128), some 1] := by decide

/-- With `int8` keys and 131 rows of one group, the next row of row 129 is reported as -126. -/
theorem makeNextKey_int8_wraps :
    (makeNextKey .i8 0 1 (List.replicate 131 1)).bind (·[129]?) = some (some (-126)) := by
  decide +kernel

/-- Rows of a group above `bins` get no value at all. -/
theorem makeNextKey_unwritten : makeNextKey .i32 0 1 [3, 1, 3] =
    some [none, some (-2147483648), none] := by decide

/-- **C22** as stated fails. -/
theorem nextCorrect_false : ¬ NextCorrect := by
  intro h
  obtain ⟨out, h1, h2⟩ := h .i32 1 [3, 1, 3] rfl (by decide) (by decide)
  rw [makeNextKey_unwritten] at h1
  cases h1
  obtain ⟨v, hv, _⟩ := h2 0 (by decide)
  cases hv

end Riptide.Pack
