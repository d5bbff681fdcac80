import Verif.Bins.SortedCall
import Verif.Bins.QuantileProps
import Verif.Arrays.InfoProps
/-! Lemmas on the calls `NanInfCountFromSort` and `BinsToCutsSorted` (C148). -/
namespace Riptide.Bins.Sorted
open Riptide.Nums Riptide.Nums.Info
open Riptide.Bins.Call (Num dataType convF)

theorem describes_bits {n : Nat} {a : Arr} {m : Mem} {e : Entry} {bs : List Nat} (h : Describes n (.array a m) e) (hsw : a.swapped = false)
    (hb : Bits a.lay.item a m bs) : bs.length = n ∧ ∀ (k b : Nat), bs[k]? = some b → load e.data ((k : Int) * a.lay.item) a.lay.item = some b := by
  obtain ⟨h1, h2⟩ := h.2.2.2.2.2 bs hb
  refine ⟨h1, fun k b hk => ?_⟩
  have h3 := h2 k b hk
  rw [hsw] at h3
  have := load_bits h3
  rwa [Int.natCast_mul] at this

theorem ints_bits {t : IT} {m : Mem} {vs : List Int} : ∀ {os : List Int} {sw : Bool}, AllAt (HasInt t sw m) os vs →
    AllAt (HasBits (t.bits / 8) sw m) os (vs.map fun v => (v % 2 ^ t.bits).toNat) := by
  intro os sw h
  induction vs generalizing os with
  | nil => cases os with
    | nil => trivial
    | cons => exact absurd h id
  | cons v vs ih => cases os with
    | nil => exact absurd h id
    | cons o os => exact ⟨h.1.2, ih h.2⟩

theorem describes_ints {n : Nat} {a : Arr} {m : Mem} {e : Entry} {t : IT} {vs : List Int} (h : Describes n (.array a m) e) (hsw : a.swapped = false)
    (ht : 0 < t.bits) (hi : a.lay.item = t.bits / 8) (hv : Ints t a m vs) :
    vs.length = n ∧ ∀ (k : Nat) v, vs[k]? = some v → loadInt t e.data ((k : Int) * (t.bits / 8 : Nat)) = some v := by
  have hb : Bits a.lay.item a m (vs.map fun v => (v % 2 ^ t.bits).toNat) := by
    rw [hi]
    exact ints_bits hv
  obtain ⟨h1, h2⟩ := h.2.2.2.2.2 _ hb
  refine ⟨by simpa using h1, fun k v hk => ?_⟩
  have h3 := h2 k _ (by rw [List.getElem?_map, hk]; rfl)
  rw [hsw, hi] at h3
  have := load_int ht ⟨ints_range hv v (List.mem_of_getElem? hk), h3⟩
  rwa [Int.natCast_mul] at this

theorem backLoop_eq {α : Type} {data : List α} {index : List Nat} {g : α → Int} {get : Nat → Option Int} {p : Int → Bool} :
    ∀ n : Nat, (∀ i, i < n → get i = (sortedAt data index i).map g) → backLoop get p n = backRun data index (fun x => p (g x)) n
  | 0, _ => rfl
  | n + 1, h => by
    unfold backLoop backRun
    rw [h n (by omega)]
    cases sortedAt data index n with
    | none => rfl
    | some x =>
      simp only [Option.map_some]
      rw [backLoop_eq n (fun i hi => h i (by omega))]

theorem frontLoop_eq {α : Type} {data : List α} {index : List Nat} {g : α → Int} {get : Nat → Option Int} {p : Int → Bool} :
    ∀ k j : Nat, (∀ i, i < j + k → get i = (sortedAt data index i).map g) → frontLoop get p k j = frontRun data index (fun x => p (g x)) k j
  | 0, _, _ => rfl
  | k + 1, j, h => by
    unfold frontLoop frontRun
    rw [h j (by omega)]
    cases sortedAt data index j with
    | none => rfl
    | some x =>
      simp only [Option.map_some]
      rw [frontLoop_eq k (j + 1) (fun i hi => h i (by omega))]

theorem countF_eq {f : FT} {data index : List Nat} {get : Nat → Option Int}
    (h : ∀ i, i < data.length → get i = (sortedAt data index i).map fun (b : Nat) => (b : Int)) : countF f get data.length = countFloats f data index := by
  unfold countF countFloats
  rw [backLoop_eq data.length h]
  simp only [Int.toNat_natCast]
  cases backRun data index f.isNan data.length with
  | none => rfl
  | some nan =>
    simp only
    rw [backLoop_eq (data.length - nan) (fun i hi => h i (by omega))]
    simp only [Int.toNat_natCast]
    cases backRun data index (fun x => f.eq x f.infMag) (data.length - nan) with
    | none => rfl
    | some inf =>
      simp only
      rw [frontLoop_eq (data.length - nan - inf) 0 (fun i hi => h i (by omega))]
      simp only [Int.toNat_natCast]
      cases frontRun data index (fun x => f.eq x (2 ^ (f.eb + f.mb) + f.infMag)) (data.length - nan - inf) 0 <;> rfl

/-! ## `BinsToCutsSorted` -/

theorem nextBin_eq {edges : List Nat} {past : Option Nat} {edge : Nat → Option Nat} (h : ∀ b, b ≤ edges.length → edge b = edgeAt edges past b) (v : Nat) :
    ∀ fuel b c : Nat, nextBin edges.length edge v fuel b c = advance edges past v fuel b c
  | 0, _, _ => rfl
  | fuel + 1, b, c => by
    unfold nextBin advance
    by_cases hb : b < edges.length ∧ FT.f64.lt c v = true
    · rw [if_pos hb, if_pos hb, h (b + 1) (by omega)]
      cases edgeAt edges past (b + 1) with
      | none => rfl
      | some c' => exact nextBin_eq h v fuel (b + 1) c'
    · rw [if_neg hb, if_neg hb]

theorem cutRows_eq {edges : List Nat} {past : Option Nat} {edge : Nat → Option Nat} (h : ∀ b, b ≤ edges.length → edge b = edgeAt edges past b) {o : IT}
    {D D' : Nat → Option Nat} : ∀ (l : List Nat) (b c : Nat), (∀ r ∈ l, D r = D' r) → cutRows edges.length edge o D l b c = middle edges past o D' l b c
  | [], _, _, _ => rfl
  | r :: l, b, c, hD => by
    have hl : ∀ r ∈ l, D r = D' r := fun s hs => hD s (by simp [hs])
    unfold cutRows middle
    rw [hD r (by simp)]
    cases D' r with
    | none => rfl
    | some v =>
      simp only
      rw [cutRows_eq h l b c hl, nextBin_eq h]
      cases advance edges past v (edges.length + 1) b c with
      | none => rfl
      | some p =>
        simp only
        rw [cutRows_eq h l p.1 p.2 hl]

theorem firstBin_eq {edges : List Nat} {past : Option Nat} {edge : Nat → Option Nat} (h : ∀ b, b ≤ edges.length → edge b = edgeAt edges past b)
    {D D' : Nat → Option Nat} {e0 : Nat} (l : List Nat) (hD : ∀ r ∈ l, D r = D' r) : firstBin edges.length edge D e0 l = startBin edges past D' e0 l := by
  cases l with
  | nil => rfl
  | cons r l =>
    unfold firstBin startBin
    simp only
    rw [hD r (by simp)]
    cases D' r with
    | none => rfl
    | some v =>
      simp only
      by_cases h1 : 1 < edges.length
      · rw [h 1 (by omega)]
      · simp [h1]

theorem clipLow_eq {D D' : Nat → Option Nat} {c : Nat} : ∀ (l : List Nat), (∀ r ∈ l, D r = D' r) → clipLow D c l = clipLow D' c l
  | [], _ => rfl
  | r :: l, hD => by
    unfold clipLow
    rw [hD r (by simp), clipLow_eq l (fun s hs => hD s (by simp [hs]))]

theorem clipLow_rest {D : Nat → Option Nat} {c : Nat} : ∀ (l rest : List Nat) ws, clipLow D c l = some (rest, ws) → ∀ r ∈ rest, r ∈ l
  | [], rest, ws, h => by
    simp only [clipLow, Option.some.injEq, Prod.mk.injEq] at h
    rw [← h.1]
    simp
  | r :: l, rest, ws, h => by
    unfold clipLow at h
    cases hd : D r with
    | none => rw [hd] at h; cases h
    | some v =>
      rw [hd] at h
      simp only at h
      split at h
      · cases hc : clipLow D c l with
        | none => rw [hc] at h; cases h
        | some p =>
          rw [hc] at h
          simp only [Option.some.injEq, Prod.mk.injEq] at h
          intro s hs
          rw [← h.1] at hs
          exact List.mem_cons_of_mem _ (clipLow_rest l p.1 p.2 hc s hs)
      · simp only [Option.some.injEq, Prod.mk.injEq] at h
        rw [← h.1]
        intro s hs
        exact hs

theorem rowAt_eq {idx : Int → Option Int} {index : List Nat} {n : Nat} (hl : index.length = n) (hin : ∀ r ∈ index, r < n)
    (h : ∀ (i r : Nat), index[i]? = some r → idx i = some (r : Int)) {i : Nat} (hi : i < n) : rowAt idx n i = some (index.getD i 0) ∧ index[i]? = some (index.getD i 0) := by
  have e : index[i]? = some (index.getD i 0) := by
    rw [List.getD]
    rw [List.getElem?_eq_getElem (by omega)]
    rfl
  refine ⟨?_, e⟩
  unfold rowAt
  rw [h i _ e]
  simp only
  have := hin _ (List.mem_of_getElem? e)
  rw [if_pos (by omega)]
  rfl

theorem span_rows {idx : Int → Option Int} {index : List Nat} {n : Nat} (hl : index.length = n) (hin : ∀ r ∈ index, r < n)
    (h : ∀ (i r : Nat), index[i]? = some r → idx i = some (r : Int)) {a c : Nat} (hac : a + c ≤ n) :
    (places a ((a + c : Nat) : Int)).mapM (rowAt idx n) = some ((index.drop a).take c) := by
  unfold places
  rw [show (((a + c : Nat) : Int) - a).toNat = c by omega, List.mapM_map,
    mapM_some (rowAt idx n ∘ fun (k : Nat) => (a : Int) + k) (fun k => index.getD (a + k) 0) (List.range c) ?_]
  · congr 1
    refine List.ext_getElem? fun k => ?_
    rw [List.getElem?_map, List.getElem?_take]
    by_cases hk : k < c
    · rw [if_pos hk, List.getElem?_drop, List.getElem?_range hk]
      exact (rowAt_eq hl hin h (i := a + k) (by omega)).2.symm
    · rw [if_neg hk]
      simp; omega
  · intro k hk
    have := (rowAt_eq hl hin h (i := a + k) (by have := List.mem_range.1 hk; omega)).1
    simpa using this

/-- The call on lists. -/
theorem cutAll_eq {α : Type} {data : List α} {conv : α → Nat} {index edges : List Nat} {past : Option Nat} {nan inf neg : Nat} {idx : Int → Option Int}
    {D : Nat → Option Nat} {edge : Nat → Option Nat} (hl : index.length = data.length) (hin : ∀ r ∈ index, r < data.length)
    (hx : ∀ (i r : Nat), index[i]? = some r → idx i = some (r : Int)) (hD : ∀ (r : Nat) x, data[r]? = some x → D r = some (conv x))
    (he : ∀ b, b ≤ edges.length → edge b = edgeAt edges past b) (hc : neg + (nan + inf) ≤ data.length) (hn : data.length < 2 ^ 63) :
    (cutAll idx D edges.length edge data.length nan inf neg).bind (runWrites data.length) = binsToCutsSorted data conv index edges past nan inf neg := by
  unfold binsToCutsSorted
  have hr : IT.i64.InRange ((nan : Int) + inf) ∧ IT.i64.InRange ((data.length : Int) - (nan + inf)) := by
    unfold IT.InRange
    rw [show IT.i64.lo = -2 ^ 63 from by decide, show IT.i64.hi = 2 ^ 63 - 1 from by decide]
    omega
  have hD' : ∀ r, r < data.length → D r = (data[r]?).map conv := by
    intro r hr
    rw [List.getElem?_eq_getElem hr, hD r _ (List.getElem?_eq_getElem hr)]
    rfl
  unfold cutAll cutWrites
  rw [if_neg (by simpa using hr), if_neg (by omega)]
  have f1 := span_rows (a := 0) (c := neg) hl hin hx (by omega)
  simp only [Nat.zero_add, List.drop_zero] at f1
  have f2 : (places 0 ((nan : Int) + inf)).mapM (fun i => rowAt idx data.length ((data.length : Int) - i - 1)) =
      (List.range (nan + inf)).mapM (fun i => if i < data.length then index[data.length - i - 1]? else none) := by
    unfold places
    rw [show ((nan : Int) + inf - 0).toNat = nan + inf by omega, List.mapM_map]
    rw [mapM_some _ (fun i => index.getD (data.length - i - 1) 0) _ ?_, mapM_some _ (fun i => index.getD (data.length - i - 1) 0) _ ?_]
    · intro i hi
      have hi := List.mem_range.1 hi
      rw [if_pos (by omega)]
      exact (rowAt_eq hl hin hx (i := data.length - i - 1) (by omega)).2
    · intro i hi
      have hi := List.mem_range.1 hi
      have := (rowAt_eq hl hin hx (i := data.length - i - 1) (by omega)).1
      simp only [Function.comp]
      rw [← this]
      congr 1
      omega
  have f3 := span_rows (a := neg) (c := data.length - (nan + inf) - neg) hl hin hx (by omega)
  rw [show ((neg + (data.length - (nan + inf) - neg) : Nat) : Int) = (data.length : Int) - (nan + inf) by omega] at f3
  have f0 : (places (0 : Int) (neg : Int)).mapM (rowAt idx data.length) = some (index.take neg) := f1
  rw [f0, f2, f3, he 0 (by omega)]
  cases (List.range (nan + inf)).mapM (fun i => if i < data.length then index[data.length - i - 1]? else none) with
  | none => rfl
  | some last =>
    cases edgeAt edges past 0 with
    | none => rfl
    | some e0 =>
      simp only
      rw [if_neg (by omega)]
      have hrows : ∀ r ∈ (index.drop neg).take (data.length - (nan + inf) - neg), D r = (data[r]?).map conv := fun r hr =>
        hD' r (hin r (List.mem_of_mem_drop (List.mem_of_mem_take hr)))
      rw [clipLow_eq (D' := fun r => (data[r]?).map conv) _ hrows]
      cases hcl : clipLow (fun r => (data[r]?).map conv) e0 ((index.drop neg).take (data.length - (nan + inf) - neg)) with
      | none => rfl
      | some p =>
        obtain ⟨rest, low⟩ := p
        simp only
        have hrest : ∀ r ∈ rest, D r = (data[r]?).map conv := fun r hr => hrows r (clipLow_rest _ _ _ hcl r hr)
        rw [firstBin_eq he rest hrest]
        cases startBin edges past (fun r => (data[r]?).map conv) e0 rest with
        | none => rfl
        | some q =>
          obtain ⟨b, c⟩ := q
          simp only
          rw [cutRows_eq he rest b c hrest]
          cases middle edges past (outType edges.length) (fun r => (data[r]?).map conv) rest b c <;> rfl

end Riptide.Bins.Sorted
