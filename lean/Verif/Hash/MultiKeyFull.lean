import Verif.Hash.MultiKeyProps
/-! # Membership of rows: rows compared by their bytes, and tables that are full (C121) -/
namespace Riptide.Hash
open Spec Riptide.Work

/-- One row on each side. -/
theorem one_row (H : List UInt8 → Nat) (A B : KeyArg) (hA0 : A.cols ≠ []) (hB0 : B.cols ≠ []) (hA : ∀ c ∈ A.cols, IsArray 1 c)
    (hB : ∀ c ∈ B.cols, IsArray 1 c) (hfA : NoFilter A) (hfB : NoFilter B) (hw : (A.cols.map (·.width)).sum = (B.cols.map (·.width)).sum) :
    multiKeyIsMember H A B 0 none =
      some (.arrays [some (if (B.cols.map fun c => item c 0).flatten = (A.cols.map fun c => item c 0).flatten then (true, 0) else (false, -128))]) := by
  obtain ⟨s, k, h1, _, _, h2, _⟩ := mask_size 1 false (by omega)
  have hd := distinct_le (fun x y : List (List UInt8) => decide (x = y)) (rowsOf B.cols 1)
  have hl : (rowsOf B.cols 1).length = 1 := by simp [rowsOf]
  obtain ⟨out, e, hlen, hout⟩ := members_by_bytes H A B 0 1 1 hA0 hB0 hA hB hfA hfB (by omega) (by omega) (by omega) hw (size := s)
    (by simpa [hintOr] using h1) (by omega) (workers := 0) (nt := true) (par := none) (.direct (.inr rfl))
  rw [e]
  match out, hlen with
  | [r], _ =>
    have := hout 0 (A.cols.map fun c => item c 0) r rfl rfl
    rcases this with ⟨e1, j, e2, ⟨y, hy, hyx⟩, _⟩ | ⟨e1, e2, e3⟩
    · have hj : j = 0 := by
        have := (List.getElem?_eq_some_iff.mp hy).1
        omega
      subst hj
      have hy' : y = B.cols.map fun c => item c 0 := by
        have : (rowsOf B.cols 1)[0]? = some (B.cols.map fun c => item c 0) := rfl
        rw [this] at hy
        injection hy with hy
        exact hy.symm
      subst hy'
      rw [if_pos hyx]
      obtain ⟨r1, r2⟩ := r
      simp only at e1 e2
      subst e1; subst e2
      rfl
    · rw [if_neg (e3 (B.cols.map fun c => item c 0) (by simp [rowsOf]))]
      obtain ⟨r1, r2⟩ := r
      simp only at e1 e2
      subst e1; subst e2
      rfl

/-- Only the sum of the widths is compared: `(1, 0x0302)` of widths 1 and 2 is found in `(0x0201, 3)` of widths 2 and 1. -/
theorem split_differently (H : List UInt8 → Nat) :
    multiKeyIsMember H (.tuple [⟨1, 1, false, [1]⟩, ⟨1, 2, false, [2, 3]⟩]) (.tuple [⟨1, 2, false, [1, 2]⟩, ⟨1, 1, false, [3]⟩]) 0 none =
      some (.arrays [some (true, 0)]) ∧
    rowsOf [⟨1, 1, false, [1]⟩, ⟨1, 2, false, [2, 3]⟩] 1 ≠ rowsOf [⟨1, 2, false, [1, 2]⟩, ⟨1, 1, false, [3]⟩] 1 := by
  refine ⟨?_, by decide⟩
  rw [one_row H _ _ (by decide) (by decide) (by simp [IsArray, KeyArg.cols]) (by simp [IsArray, KeyArg.cols]) (by simp [NoFilter]) (by simp [NoFilter])
    (by decide)]
  rfl

/-- Items are compared by their bytes: the `float32` 0.0 is not found in an array with -0.0, a NaN is found in an array with the same NaN, and 1.0 in an array with
the `int32` 1065353216. -/
theorem compared_by_bits (H : List UInt8 → Nat) :
    multiKeyIsMember H (.tuple [⟨1, 4, false, [0, 0, 0, 0]⟩]) (.tuple [⟨1, 4, false, [0, 0, 0, 0x80]⟩]) 0 none = some (.arrays [some (false, -128)]) ∧
    multiKeyIsMember H (.tuple [⟨1, 4, false, [0, 0, 0xC0, 0x7F]⟩]) (.tuple [⟨1, 4, false, [0, 0, 0xC0, 0x7F]⟩]) 0 none = some (.arrays [some (true, 0)]) ∧
    leWord [0, 0, 0x80, 0x3F] = FT.f32.ofInt 1 ∧ leWord [0, 0, 0x80, 0x3F] = 1065353216 := by
  refine ⟨?_, ?_, by decide +kernel, by decide⟩
  all_goals
    rw [one_row H _ _ (by decide) (by decide) (by simp [IsArray, KeyArg.cols]) (by simp [IsArray, KeyArg.cols]) (by simp [NoFilter]) (by simp [NoFilter])
      (by decide)]
    rfl

/-! ## Full tables -/

/-- The keys in a table. -/
def stored {K V : Type} (t : Slots K V) : List K := t.filterMap fun o => o.map (·.1)

theorem mem_stored {K V : Type} {t : Slots K V} {k : K} : k ∈ stored t ↔ ∃ p v, At t p k v := by
  unfold stored At
  rw [List.mem_filterMap]
  constructor
  · rintro ⟨o, ho, hk⟩
    obtain ⟨p, hp, e⟩ := List.getElem_of_mem ho
    cases o with
    | none => simp at hk
    | some kv =>
      obtain ⟨k', v⟩ := kv
      simp only [Option.map_some, Option.some.injEq] at hk
      subst hk
      exact ⟨p, v, by rw [List.getElem?_eq_getElem hp, e]⟩
  · rintro ⟨p, v, h⟩
    exact ⟨some (k, v), List.mem_of_getElem? h, rfl⟩

theorem stored_length {K V : Type} (t : Slots K V) : (stored t).length ≤ t.length := List.length_filterMap_le _ _

/-- An insertion into a table that succeeds keeps all keys, and has an equal one for the new key. -/
theorem upsert_stored {K V : Type} {hash : K → Nat} {eq : K → K → Bool} {t t' : Slots K V} {k : K} {v : V} {o : Option V}
    (hh : hash k < t.length) (h : upsert t (fun x => eq x k) (hash k) k v id = .ok (t', o)) (hrefl : eq k k = true) :
    t'.length = t.length ∧ (∀ x ∈ stored t, x ∈ stored t') ∧ (∃ x ∈ stored t', eq x k = true) ∧ ∀ x ∈ stored t', x ∈ stored t ∨ x = k := by
  have hpf := probe_from t (fun x => eq x k) (hash k) hh t.length 0 (by omega) (by omega) (fun e he => absurd he (by omega))
  rw [cyc_zero hh] at hpf
  unfold upsert at h
  rcases hpf with ⟨d, k', v', _, _, e, hat, hm, _⟩ | ⟨d, _, hd, e, hfree, _⟩ | ⟨e, _⟩
  · rw [e] at h
    simp only [Except.ok.injEq, Prod.mk.injEq] at h
    obtain ⟨rfl, _⟩ := h
    have hp := at_lt hat
    have hset : t.set (cyc t.length (hash k) d) (some (k', id v')) = t := by
      apply List.ext_getElem?
      intro q
      rw [List.getElem?_set]
      split
      · rename_i hq
        subst hq
        simpa [hp] using hat.symm
      · rfl
    rw [hset]
    exact ⟨rfl, fun x hx => hx, ⟨k', mem_stored.mpr ⟨_, _, hat⟩, hm⟩, fun x hx => .inl hx⟩
  · rw [e] at h
    simp only [Except.ok.injEq, Prod.mk.injEq] at h
    obtain ⟨rfl, _⟩ := h
    have hp := cyc_lt hh hd
    refine ⟨by simp, ?_, ⟨k, mem_stored.mpr ⟨_, v, (at_set hp).mpr (.inl ⟨rfl, rfl, rfl⟩)⟩, hrefl⟩, ?_⟩
    · intro x hx
      obtain ⟨q, w, hq⟩ := mem_stored.mp hx
      refine mem_stored.mpr ⟨q, w, (at_set hp).mpr (.inr ⟨?_, hq⟩)⟩
      rintro rfl
      unfold At at hq
      rw [hfree] at hq
      simp at hq
    · intro x hx
      obtain ⟨q, w, hq⟩ := mem_stored.mp hx
      rcases (at_set hp).mp hq with ⟨_, h1, _⟩ | ⟨_, h1⟩
      · exact .inr h1
      · exact .inl (mem_stored.mpr ⟨q, w, h1⟩)
  · rw [e] at h
    simp at h

/-- Insertions never read outside of the table. -/
theorem insertAll_no_oob {K V : Type} {hash : K → Nat} {eq : K → K → Bool} {val : Nat → V} (ks : List K) (i : Nat) (t : Slots K V)
    (hh : ∀ k ∈ ks, hash k < t.length) (hr : ∀ k ∈ ks, eq k k = true) : insertAll (fun _ => true) hash eq val i ks t ≠ .error .oob := by
  induction ks generalizing i t with
  | nil => simp [insertAll]
  | cons k ks ih =>
    unfold insertAll
    rw [if_pos rfl]
    have hk := hh k (by simp)
    have hpf := probe_from t (fun x => eq x k) (hash k) hk t.length 0 (by omega) (by omega) (fun e he => absurd he (by omega))
    rw [cyc_zero hk] at hpf
    cases hu : upsert t (fun x => eq x k) (hash k) k (val i) id with
    | ok r =>
      dsimp only
      obtain ⟨t', o⟩ := r
      have := upsert_stored hk hu (hr k (by simp))
      exact ih _ _ (fun x hx => by rw [this.1]; exact hh x (by simp [hx])) (fun x hx => hr x (by simp [hx]))
    | error e =>
      dsimp only
      unfold upsert at hu
      rcases hpf with ⟨d, k', v', _, _, e', _⟩ | ⟨d, _, _, e', _⟩ | ⟨e', _⟩
      · rw [e'] at hu; simp at hu
      · rw [e'] at hu; simp at hu
      · rw [e'] at hu
        simp only [Except.error.injEq] at hu
        subst hu
        simp

/-- If all insertions succeed, all keys are in the table. -/
theorem insertAll_stored {K V : Type} {hash : K → Nat} {eq : K → K → Bool} {val : Nat → V} (ks : List K) (i : Nat) (t t' : Slots K V)
    (hh : ∀ k ∈ ks, hash k < t.length) (hr : ∀ k ∈ ks, eq k k = true) (h : insertAll (fun _ => true) hash eq val i ks t = .ok t') :
    t'.length = t.length ∧ (∀ x ∈ stored t, x ∈ stored t') ∧ (∀ k ∈ ks, ∃ x ∈ stored t', eq x k = true) ∧
      ∀ x ∈ stored t', x ∈ stored t ∨ x ∈ ks := by
  induction ks generalizing i t with
  | nil =>
    simp only [insertAll, Except.ok.injEq] at h
    subst h
    exact ⟨rfl, fun x hx => hx, by simp, fun x hx => .inl hx⟩
  | cons k ks ih =>
    unfold insertAll at h
    rw [if_pos rfl] at h
    cases hu : upsert t (fun x => eq x k) (hash k) k (val i) id with
    | error e => rw [hu] at h; simp at h
    | ok r =>
      rw [hu] at h
      dsimp only at h
      obtain ⟨t1, o⟩ := r
      obtain ⟨g1, g2, ⟨x, g3, g4⟩, g5⟩ := upsert_stored (hh k (by simp)) hu (hr k (by simp))
      obtain ⟨i1, i2, i3, i4⟩ := ih _ t1 (fun x hx => by rw [g1]; exact hh x (by simp [hx])) (fun x hx => hr x (by simp [hx])) h
      refine ⟨i1.trans g1, fun y hy => i2 y (g2 y hy), ?_, ?_⟩
      · intro y hy
        rcases List.mem_cons.mp hy with rfl | hy
        · exact ⟨x, i2 x g3, g4⟩
        · exact i3 y hy
      · intro y hy
        rcases i4 y hy with h1 | h1
        · rcases g5 y h1 with h2 | h2
          · exact .inl h2
          · exact .inr (by simp [h2])
        · exact .inr (by simp [h1])

/-- More distinct rows than slots (a hint that is too small): `None` is returned. -/
theorem small_hint (t : IT) (H : List UInt8 → Nat) (size w : Nat) (a b u : List (List UInt8)) (hs : 0 < size) (hb : ∀ x ∈ b, x.length = w)
    (hu : u.Nodup) (hub : ∀ x ∈ u, x ∈ b) (hfull : size < u.length) (par : Option (List Nat)) : isMemberMk t H size a b par = some .pyNone := by
  unfold isMemberMk
  have hrange : ∀ k ∈ b, mkHash H size k < (fresh (List UInt8) Int size).length := by
    intro k hk
    rw [fresh, List.length_replicate]
    exact (laws_row H hs w).range k (hb k hk)
  have hrefl : ∀ k ∈ b, rowEq k k = true := fun k _ => (rowEq_iff rfl).mpr rfl
  have hno := insertAll_no_oob (eq := rowEq) (val := fun i : Nat => t.wrap (i : Int)) b 0 (fresh (List UInt8) Int size) hrange hrefl
  cases hi : insertAll (fun _ => true) (mkHash H size) rowEq (fun i : Nat => t.wrap (i : Int)) 0 b (fresh _ Int size) with
  | error e =>
    cases e with
    | full => rfl
    | oob => exact absurd hi hno
  | ok t' =>
    exfalso
    obtain ⟨h1, _, h3, h5⟩ := insertAll_stored b 0 _ t' hrange hrefl hi
    have hsub : ∀ x ∈ u, x ∈ stored t' := by
      intro x hx
      obtain ⟨y, hy, he⟩ := h3 x (hub x hx)
      have hyb : y ∈ b := by
        rcases h5 y hy with h | h
        · obtain ⟨p, v, h⟩ := mem_stored.mp h
          exact absurd h fresh_not_at
        · exact h
      rw [(rowEq_iff ((hb y hyb).trans (hb x (hub x hx)).symm)).mp he] at hy
      exact hy
    have := nodup_subset_length hu hsub
    have h4 := stored_length t'
    rw [h1, fresh, List.length_replicate] at h4
    omega

theorem mapM_none {α β : Type} {f : α → Option β} {x : α} : ∀ {l : List α}, x ∈ l → f x = none → l.mapM f = none
  | y :: l, hx, hf => by
    rw [List.mapM_cons]
    rcases List.mem_cons.mp hx with rfl | hx
    · rw [hf]; rfl
    · rw [mapM_none hx hf]
      cases f y <;> rfl

/-- A row that fails makes the whole work fail. -/
theorem elemWork_none {α : Type} {f : Nat → Option α} {n i : Nat} (hi : i < n) (hf : f i = none) {workers : Nat} {nt : Bool} {par : Option (List Nat)}
    (hs : ChunkSched workers n nt par) : elemWork f n par = none := by
  rcases hs.cases with ⟨rfl, _⟩ | ⟨calls, rfl, _, hp⟩
  · show elemBlock f 0 n = none
    unfold elemBlock
    exact mapM_none (x := i) (by rw [← List.range_eq_range']; simpa using hi) (by rw [hf]; rfl)
  · have hc := blocks_cover n
    have hmem : i ∈ (List.range (blockLastGeneric n chunk)).flatMap (blockRows n chunk) := by rw [hc]; simpa using hi
    obtain ⟨b, hb, hib⟩ := List.mem_flatMap.mp hmem
    show (calls.mapM fun b => elemBlock f (chunk * b) (blockLen n chunk (blockLastGeneric n chunk) b)).map List.flatten = none
    rw [mapM_none (x := b) (hp.mem_iff.2 hb) (mapM_none (x := i) hib (by rw [hf]; rfl))]
    rfl

theorem distinct_nodup {K : Type} [DecidableEq K] {eq : K → K → Bool} : ∀ (l seen : List K), (∀ x ∈ seen ++ l, ∀ y ∈ l, eq x y = true → x = y) →
    (seen ++ l).Nodup → distinctFrom eq seen l = l.length
  | [], _, _, _ => rfl
  | k :: l, seen, he, hn => by
    have ih := distinct_nodup (eq := eq) l (seen ++ [k]) (fun x hx y hy => he x (by simpa using hx) y (by simp [hy])) (by simpa using hn)
    rw [distinctFrom, ih, if_neg, List.length_cons]
    · omega
    · rw [List.any_eq_true]
      rintro ⟨x, hx, hxe⟩
      have := he x (by simp [hx]) k (by simp) hxe
      subst this
      rw [List.nodup_append] at hn
      exact hn.2.2 x hx x (by simp) rfl

theorem insertAll_append {K V : Type} {ins : K → Bool} {hash : K → Nat} {eq : K → K → Bool} {val : Nat → V} (ks ks' : List K) (i : Nat) (t t' : Slots K V)
    (h : insertAll ins hash eq val i ks t = .ok t') :
    insertAll ins hash eq val i (ks ++ ks') t = insertAll ins hash eq val (i + ks.length) ks' t' := by
  induction ks generalizing i t with
  | nil =>
    simp only [insertAll, Except.ok.injEq] at h
    subst h
    rfl
  | cons k ks ih =>
    rw [List.cons_append]
    rw [insertAll] at h ⊢
    rw [List.length_cons, show i + (ks.length + 1) = i + 1 + ks.length by omega]
    by_cases hi : ins k = true
    · rw [if_pos hi] at h ⊢
      cases hu : upsert t (fun x => eq x k) (hash k) k (val i) id with
      | error e => rw [hu] at h; simp at h
      | ok r =>
        rw [hu] at h
        dsimp only at h ⊢
        exact ih _ _ h
    · rw [if_neg hi] at h ⊢
      exact ih _ _ h

/-- As many distinct rows as slots: the table is built, but the search for a row that is not there does not end: `None` is returned if the calling thread does all the
work, and the process ends otherwise. -/
theorem exactly_full (t : IT) (H : List UInt8 → Nat) (size w : Nat) (a b : List (List UInt8)) (hs : 0 < size) (hb : ∀ x ∈ b, x.length = w)
    (hn : b.Nodup) (hfull : b.length = size) (x : List UInt8) (hxa : x ∈ a) (hx : x.length = w) (hxb : x ∉ b)
    {workers : Nat} {nt : Bool} {par : Option (List Nat)} (hsc : ChunkSched workers a.length nt par) :
    isMemberMk t H size a b par = if par = none then some .pyNone else none := by
  have L := laws_row H hs w
  have hne : b ≠ [] := by
    intro h
    rw [h] at hfull
    simp at hfull
    omega
  have heq : ∀ x ∈ b, ∀ y ∈ b, rowEq x y = true → x = y := fun x hx y hy => (rowEq_iff ((hb x hx).trans (hb y hy).symm)).mp
  have hsplit : b.dropLast ++ [b.getLast hne] = b := List.dropLast_concat_getLast hne
  have hdl : ∀ y ∈ b.dropLast, y ∈ b := fun y hy => List.dropLast_subset b hy
  have hdn : b.dropLast.Nodup := List.Nodup.sublist (List.dropLast_sublist b) hn
  have hd1 : distinct rowEq b.dropLast = size - 1 := by
    rw [distinct, distinct_nodup b.dropLast [] (fun x hx y hy => heq x (hdl x (by simpa using hx)) y (hdl y hy)) (by simpa using hdn), List.length_dropLast, hfull]
  have hd2 : distinct rowEq b = size := by
    rw [distinct, distinct_nodup b [] (fun x hx y hy => heq x (by simpa using hx) y hy) (by simpa using hn), hfull]
  have hft : ∀ l : List (List UInt8), l.filter (fun _ => true) = l := fun l => by simp
  obtain ⟨t1, e1, B1⟩ := insertAll_spec (ins := fun _ => true) (val := fun i : Nat => t.wrap (i : Int)) L b.dropLast []
    (fresh _ Int size) (built_fresh _ (fun _ => true) (mkHash H size) rowEq _ size)
    (fun x hx _ => hb x (hdl x (by simpa using hx))) (by rw [List.nil_append, hft, hd1]; omega)
  rw [List.nil_append] at B1
  obtain ⟨t2, old, e2, B2, _⟩ := built_step L B1 (fun x hx _ => hb x (hdl x hx)) (b.getLast hne) rfl (hb _ (List.getLast_mem hne)) (by rw [hft, hd1]; omega)
  rw [hsplit] at B2
  have e : insertAll (fun _ => true) (mkHash H size) rowEq (fun i : Nat => t.wrap (i : Int)) 0 b (fresh _ Int size) = .ok t2 := by
    have := insertAll_append b.dropLast [b.getLast hne] 0 _ t1 e1
    rw [hsplit] at this
    rw [this, insertAll, if_pos rfl, Nat.zero_add, e2]
    rfl
  have hused : used t2 = t2.length := by rw [B2.used, hft, hd2, B2.len]
  have hfind : find t2 (fun y => rowEq y x) (mkHash H size x) = .error .full := by
    have hpr := probe_spec (B2.len ▸ L) B2.inv x hx
    unfold find
    generalize probe t2 t2.length (fun y => rowEq y x) (mkHash H size x) t2.length (mkHash H size x) = o at hpr
    cases hpr with
    | hit hat hm =>
      exfalso
      obtain ⟨j, hj, _⟩ := (B2.map x _ hx).mp ⟨_, _, hat, hm⟩
      obtain ⟨h1, h2, _⟩ := List.findIdx?_eq_some_iff_getElem.mp hj
      rw [Bool.true_and] at h2
      have := (rowEq_iff ((hb _ (List.getElem_mem h1)).trans hx.symm)).mp h2
      exact hxb (this ▸ List.getElem_mem h1)
    | empty hd hfree _ _ =>
      exfalso
      have := List.countP_eq_length.mp hused none (List.mem_of_getElem? hfree)
      simp at this
    | full _ _ => rfl
  obtain ⟨i, hi, hix⟩ := List.getElem_of_mem hxa
  unfold isMemberMk
  rw [e]
  dsimp only
  rw [elemWork_none hi (by
    rw [List.getElem?_eq_getElem hi, hix, Option.bind_some, memberOne, if_pos rfl, hfind]) hsc]

/-! ## Concrete cases -/

/-- Two arrays, a row that is there twice, one that is missing. -/
example (H : List UInt8 → Nat) := unhinted_members_partial H (.tuple [⟨3, 1, false, [1, 2, 1]⟩, ⟨3, 2, false, [7, 0, 8, 0, 9, 0]⟩])
  (.list [⟨2, 1, false, [1, 1]⟩, ⟨2, 2, false, [7, 0, 7, 0]⟩]) 3 2 (by decide) (by simp [IsArray, KeyArg.cols]) (by simp [IsArray, KeyArg.cols])
  (by simp [NoFilter]) trivial (by omega) (by omega) (by omega) (by omega) rfl (workers := 0) (nt := true) (par := none) (.direct (.inr rfl))

example : rowsOf [⟨3, 1, false, [1, 2, 1]⟩, ⟨3, 2, false, [7, 0, 8, 0, 9, 0]⟩] 3 = [[[1], [7, 0]], [[2], [8, 0]], [[1], [9, 0]]] := by decide

/-- A table of two slots. -/
example : isMemberMk .i8 List.length 2 [[1]] [[1], [2]] none = some (.arrays [some (true, 0)]) := by decide +kernel

example (H : List UInt8 → Nat) := exactly_full .i8 H 2 1 [[1], [3]] [[1], [2]] (by omega) (by simp) (by decide) rfl [3] (by simp) rfl (by decide)
  (workers := 0) (nt := true) (par := none) (.direct (.inr rfl))

example (H : List UInt8 → Nat) := small_hint .i8 H 2 1 [[1]] [[1], [2], [1], [3]] [[1], [2], [3]] (by omega) (by simp) (by decide) (by simp) (by decide) none

example (H : List UInt8 → Nat) := third_not_bool H [⟨1, 1, false, [1]⟩, ⟨1, 1, false, [2]⟩, ⟨1, 1, false, [3]⟩] (.list [⟨1, 3, false, [1, 2, 3]⟩]) 0
  ⟨1, 1, false, [3]⟩ rfl rfl (by decide) ⟨1, by simp [IsArray, KeyArg.cols], trivial⟩ none

example (H : List UInt8 → Nat) := no_rows H (.tuple [⟨0, 1, false, []⟩]) (.list [⟨1, 1, false, [1]⟩]) 0 0 1 (by decide) (by decide)
  (by simp [IsArray, KeyArg.cols]) (by simp [IsArray, KeyArg.cols]) (by simp [NoFilter]) trivial (.inl rfl) none

example (H : List UInt8 → Nat) := widths_differ H (.tuple [⟨1, 1, false, [1]⟩]) (.list [⟨1, 2, false, [1, 2]⟩]) 0 1 1 (by decide) (by decide)
  (by simp [IsArray, KeyArg.cols]) (by simp [IsArray, KeyArg.cols]) (by simp [NoFilter]) trivial (by decide) none

example (H : List UInt8 → Nat) := lengths_differ H (.tuple [⟨1, 1, false, [1]⟩, ⟨2, 1, false, [1, 2]⟩]) (.list [⟨1, 2, false, [1, 2]⟩]) 0 (by decide) (by decide)
  ⟨1, by simp [IsArray, KeyArg.cols], trivial⟩ ⟨⟨1, 1, false, [1]⟩, by simp [KeyArg.cols], ⟨2, 1, false, [1, 2]⟩, by simp [KeyArg.cols], by decide⟩ none

end Riptide.Hash
