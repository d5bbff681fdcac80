import Verif.Arrays.AssignCallProps
/-! What `PutMask` does to memory (C158). -/
namespace Riptide.Nums.Assign
open Spec Riptide.Nums Riptide.Arrays Riptide.Binary Riptide.Work
open Riptide.Mask.Call.Spec (inC)
open Riptide.Nums.Stack (loadItem load_val carried_item)
open Riptide.Nums.Stack.Spec (HasVal Carried Able)
open Riptide.Convert.Call (Wide Conv castItem badOf zeroOf fltOf intOf convItem safeKern step2Safe)
open Riptide.Convert.Call.Spec (whole real size)
open Riptide.GroupBy.Entry (CT inOf ctOf)

theorem nan_not_finite {f : FT} {x : Nat} (h : f.isNan x = true) : f.isFinite x = false := by
  unfold FT.isNan at h
  unfold FT.isFinite
  simp at h ⊢
  omega

/-- What one item becomes. -/
theorem put_item (w : Wide) (nan : Int → Bool) {ti to : Nat} {x : Int} (h1 : ti ≤ 12) (h2 : to ≤ 12) (hne : ti ≠ to) (hx : Stack.Spec.Value ti x) (hf : Fine w ti to x) :
    ∃ k, putKern ti to = some k ∧ (∀ n, k ≠ .fast n) ∧ ∃ y, putItem w nan ti k x = some y ∧ Put w ti to x y := by
  rcases hf with hf | ⟨_, _, hb, hi, hff⟩
  · exact absurd hf hne
  have able : Able w ti to x := .inr ⟨h1, h2, fun f d hr hd hfin => by
    rcases hi f d hr hd with hn | hn
    · rw [nan_not_finite hn] at hfin; cases hfin
    · exact hn.2, hff⟩
  obtain ⟨c, c1, y, c2, c3⟩ := carried_item w (by omega) (by omega) hx able
  obtain ⟨T, hT⟩ : ∃ T, inOf ti = some T := by
    obtain ⟨T, hT, _⟩ := Stack.type_facts (show ti ≤ 13 by omega)
    exact ⟨T, hT⟩
  unfold safeKern at c1
  rw [if_neg hne, hT] at c1
  cases hU : ctOf to with
  | none => rw [hU] at c1; cases c1
  | some U =>
    rw [hU] at c1
    simp only [Option.some.injEq] at c1
    have hk : putKern ti to = some (kernOf T U) := by
      unfold putKern
      rw [if_neg hne, hT, hU]
    refine ⟨_, hk, ?_, ?_⟩
    · intro n
      unfold kernOf
      split
      · simp
      · split <;> simp
    · by_cases hbool : U = .bool
      · subst hbool
        refine ⟨y, ?_, .carried c3⟩
        rw [← c1] at c2
        unfold kernOf
        unfold step2Safe at c2
        rw [if_pos rfl] at c2 ⊢
        exact c2
      · have hTi : (T = .f32 ∧ ti = 11) ∨ (T = .f64 ∧ ti = 12) ∨ (T ≠ .f32 ∧ T ≠ .f64 ∧ T ≠ .f80 ∧ (ti = 0 → T = .i8)) := by
          have : ti = 0 ∨ ti = 1 ∨ ti = 2 ∨ ti = 3 ∨ ti = 4 ∨ ti = 5 ∨ ti = 6 ∨ ti = 7 ∨ ti = 8 ∨ ti = 9 ∨ ti = 10 ∨ ti = 11 ∨ ti = 12 := by omega
          rcases this with rfl | rfl | rfl | rfl | rfl | rfl | rfl | rfl | rfl | rfl | rfl | rfl | rfl <;>
            (have := Option.some.inj hT; subst this; decide)
        have hUi : (U = .f32 ∧ to = 11) ∨ (U = .f64 ∧ to = 12) ∨ (U ≠ .f32 ∧ U ≠ .f64 ∧ ∃ d, whole to = some d) := by
          have : to = 0 ∨ to = 1 ∨ to = 2 ∨ to = 3 ∨ to = 4 ∨ to = 5 ∨ to = 6 ∨ to = 7 ∨ to = 8 ∨ to = 9 ∨ to = 10 ∨ to = 11 ∨ to = 12 := by omega
          rcases this with rfl | rfl | rfl | rfl | rfl | rfl | rfl | rfl | rfl | rfl | rfl | rfl | rfl <;>
            (have := Option.some.inj hU; subst this; first | exact absurd rfl hbool | (left; decide) | (right; left; decide) | (right; right; exact ⟨by decide, by decide, _, rfl⟩))
        rcases hTi with ⟨rfl, rfl⟩ | ⟨rfl, rfl⟩ | ⟨n1, n2, n3, n0⟩
        · rcases hUi with ⟨rfl, rfl⟩ | ⟨rfl, rfl⟩ | ⟨u1, u2, d, hd⟩
          · exact absurd rfl hne
          · have hk' : kernOf CT.f32 CT.f64 = .floats .f32 .f64 := by decide
            rw [hk']
            by_cases hn : FT.f32.isNan x.toNat = true
            · exact ⟨badOf w .f64, by show (if FT.f32.isNan x.toNat = true then _ else _) = _; rw [if_pos hn], .nan (f := .f32) (g := .f64) rfl rfl hn (show FT.f64.isNan FT.f64.qnan = true by decide)⟩
            · refine ⟨y, ?_, .carried c3⟩
              show (if FT.f32.isNan x.toNat = true then _ else _) = _
              rw [if_neg hn]
              rw [← c1] at c2
              exact c2
          · refine ⟨y, ?_, .carried c3⟩
            rw [← c1] at c2
            unfold step2Safe at c2
            rw [if_neg hbool] at c2
            simp only [if_neg u2] at c2
            unfold kernOf
            rw [if_neg hbool, if_pos (.inl rfl)]
            have c2' : (if FT.f32.isFinite x.toNat = true then castItem w .f32 U x else some (badOf w U)) = some y := c2
            show (if FT.f32.isNan x.toNat = true then some (badOf w U) else castItem w .f32 U x) = some y
            rcases hi .f32 d rfl hd with hn | hn
            · rw [if_pos hn]; rw [nan_not_finite hn] at c2'; exact c2'
            · rw [if_neg (by intro hc; rw [nan_not_finite hc] at hn; cases hn.1)]; rw [if_pos hn.1] at c2'; exact c2'
        · rcases hUi with ⟨rfl, rfl⟩ | ⟨rfl, rfl⟩ | ⟨u1, u2, d, hd⟩
          · have hk' : kernOf CT.f64 CT.f32 = .floats .f64 .f32 := by decide
            rw [hk']
            by_cases hn : FT.f64.isNan x.toNat = true
            · exact ⟨badOf w .f32, by show (if FT.f64.isNan x.toNat = true then _ else _) = _; rw [if_pos hn], .nan (f := .f64) (g := .f32) rfl rfl hn (show FT.f32.isNan FT.f32.qnan = true by decide)⟩
            · refine ⟨y, ?_, .carried c3⟩
              show (if FT.f64.isNan x.toNat = true then _ else _) = _
              rw [if_neg hn]
              rw [← c1] at c2
              exact c2
          · exact absurd rfl hne
          · refine ⟨y, ?_, .carried c3⟩
            rw [← c1] at c2
            unfold step2Safe at c2
            rw [if_neg hbool] at c2
            simp only [if_neg u1] at c2
            unfold kernOf
            rw [if_neg hbool, if_pos (.inr (.inl rfl))]
            have c2' : (if FT.f64.isFinite x.toNat = true then castItem w .f64 U x else some (badOf w U)) = some y := c2
            show (if FT.f64.isNan x.toNat = true then some (badOf w U) else castItem w .f64 U x) = some y
            rcases hi .f64 d rfl hd with hn | hn
            · rw [if_pos hn]; rw [nan_not_finite hn] at c2'; exact c2'
            · rw [if_neg (by intro hc; rw [nan_not_finite hc] at hn; cases hn.1)]; rw [if_pos hn.1] at c2'; exact c2'
        · refine ⟨y, ?_, .carried c3⟩
          have hs : step2Safe T U = .safe T U := by
            unfold step2Safe
            rw [if_neg hbool]
            cases T <;> first | rfl | contradiction
          rw [← c1, hs] at c2
          have c2' : (if x ≠ badOf w T then castItem w T U x else some (badOf w U)) = some y := c2
          unfold kernOf
          rw [if_neg hbool, if_neg (by intro hc; rcases hc with hc | hc | hc <;> contradiction)]
          show (if x ≠ (if ti = 0 then 0 else badOf w T) then castItem w T U x else some (badOf w U)) = some y
          by_cases h0 : ti = 0
          · have hx1 := hb h0
            subst hx1
            rw [n0 h0] at c2' ⊢
            rw [if_pos (by rw [if_pos h0]; decide)]
            rw [if_pos (show (1 : Int) ≠ badOf w .i8 by show (1 : Int) ≠ IT.i8.inv; decide)] at c2'
            exact c2'
          · rw [if_neg h0]; exact c2'

theorem bytesOf_get : ∀ (n b q : Nat), q < n → (bytesOf n b)[q]? = some (BitVec.ofNat 8 (b / 256 ^ q))
  | n + 1, b, 0, _ => by rw [bytesOf]; simp
  | n + 1, b, q + 1, h => by
    rw [bytesOf, List.getElem?_cons_succ, bytesOf_get n _ q (by omega), Nat.div_div_eq_div_mul, Nat.pow_succ, Nat.mul_comm]

theorem storeItem_over {M : Mem} {o : Int} {n : Nat} {y : Int} (h : ∀ (i : Nat), i < n → (M (o + i)).isSome = true) :
    storeItem M o n y = some (over M o n (some fun q => BitVec.ofNat 8 ((y % 2 ^ (8 * n)).toNat / 256 ^ q))) := by
  unfold storeItem
  rw [if_pos (by rw [List.all_eq_true]; intro i hi; exact h i (List.mem_range.1 hi))]
  rfl

theorem hasBits_congr {M M' : Mem} {o o' : Int} {n b : Nat} {sw : Bool} (h : ∀ (q : Nat), q < n → M' (o' + q) = M (o + q)) (hb : HasBits n sw M o b) :
    HasBits n sw M' o' b := by
  refine ⟨hb.1, ?_⟩
  intro j hj
  have hl : j < n := by
    cases sw
    · simpa [bytesOf_length] using hj
    · simpa [bytesOf_length] using hj
  rw [h j hl]
  exact hb.2 j hj

theorem pattern_lt (y : Int) (n : Nat) : (y % 2 ^ (8 * n)).toNat < 256 ^ n := by
  have h0 := Int.emod_nonneg y (Int.ne_of_gt (IT.pow_pos (8 * n)))
  have h1 := Int.emod_lt_of_pos y (IT.pow_pos (8 * n))
  have e : (256 : Nat) ^ n = 2 ^ (8 * n) := by rw [Nat.pow_mul]
  rw [e]
  have : ((2 ^ (8 * n) : Nat) : Int) = 2 ^ (8 * n) := by norm_cast
  omega

/-- The bytes which a masked row gets, from the memory before the call. -/
def putBytes (w : Wide) (nan : Int → Bool) (k : Kern) (M : Mem) (arr vals : View) (j : Nat) : Nat → BitVec 8 :=
  match k with
  | .fast _ => byteAt M (vals.base + ((vals.lay.item * j : Nat) : Int))
  | k => fun q => BitVec.ofNat 8 (((((loadItem vals.type M (vals.base + ((vals.lay.item * j : Nat) : Int))).bind (putItem w nan vals.type k)).getD 0) %
      2 ^ (8 * arr.lay.item)).toNat / 256 ^ q)

/-- `PutMask` of arrays which are packed and apart. -/
theorem put_arrays {w : Wide} {nan : Int → Bool} {M : Mem} {arr mask vals : View} (h : Trio M arr mask vals) (hw : arr.writable = true)
    (ho : arr.swapped = false) (ho' : vals.swapped = false) (ha : arr.type ≤ 13) (hv : vals.type ≤ 13) (hia : arr.lay.item = size arr.type)
    (hiv : vals.lay.item = size vals.type) (hlen : vals.lay.len = arr.lay.len) (hm : mask.type = 0)
    (hs : arr.lay.len ≤ 1 ∨ arr.lay.strides.head? = some (arr.lay.item : Int))
    (hx : ∀ (j : Nat) q, (places vals)[j]? = some q → (truth M mask)[j]? = some true → ∃ x, HasVal vals.type false M q x ∧ Fine w vals.type arr.type x)
    (hk13 : vals.type = arr.type ∨ vals.type ≤ 12 ∧ arr.type ≤ 12)
    {workers : Nat} {nt : Bool} {par : Option (List Nat)} (hpar : ChunkSched workers arr.lay.len nt par) (hsmall : par = none → arr.lay.len < 2147483648) :
    ∃ M', putArrays w nan M arr mask vals par = .done M' ∧ Replaced w M arr mask vals M' := by
  have hfit : putFits arr mask vals = true := by
    unfold putFits
    exact decide_eq_true ⟨hm, h.rows, hs, hlen.symm⟩
  obtain ⟨k, hk, hfast⟩ : ∃ k, putKern vals.type arr.type = some k ∧ ((vals.type = arr.type ∧ k = .fast arr.lay.item) ∨ (vals.type ≠ arr.type ∧ ∀ n, k ≠ .fast n)) := by
    by_cases he : vals.type = arr.type
    · refine ⟨.fast arr.lay.item, ?_, .inl ⟨he, rfl⟩⟩
      obtain ⟨T, hT, hsz, _⟩ := Riptide.Convert.Call.ct_some ha
      unfold putKern
      rw [if_pos he, he, hT, hia, ← hsz]
      rfl
    · obtain ⟨T, hT, _⟩ := Stack.type_facts hv
      obtain ⟨U, hU, _⟩ := Riptide.Convert.Call.ct_some ha
      refine ⟨kernOf T U, ?_, .inr ⟨he, ?_⟩⟩
      · unfold putKern
        rw [if_neg he, hT, hU]
      · intro n
        unfold kernOf
        split
        · simp
        · split <;> simp
  have hmaskrow : ∀ (j : Nat), j < arr.lay.len → ∃ b, M (mask.base + j) = some b ∧ (truth M mask)[j]? = some (decide (b ≠ 0#8)) :=
    fun j hj => mask_at h.packedMask h.byte (by rw [← h.rows]; exact hj)
  have hval : ∀ (j : Nat), j < arr.lay.len → ∀ M', Frame M arr.base (arr.lay.item * arr.lay.len) M' → ∀ (q : Nat), q < vals.lay.item →
      M' (vals.base + ((vals.lay.item * j : Nat) : Int) + q) = M (vals.base + ((vals.lay.item * j : Nat) : Int) + q) := by
    intro j hj M' hF q hq
    apply hF.out
    have hap := h.awayVals
    unfold Away at hap
    have := mul_apart (item := vals.lay.item) (show j < vals.lay.len by omega)
    omega
  -- one row
  have hrow : ∀ M' (j : Nat), Frame M arr.base (arr.lay.item * arr.lay.len) M' → j < arr.lay.len → putRow w nan k arr mask vals M' j =
      some (over M' (arr.base + ((arr.lay.item * j : Nat) : Int)) arr.lay.item
        (if (truth M mask)[j]? = some true then some (putBytes w nan k M arr vals j) else none)) := by
    intro M' j hF hj
    obtain ⟨b, hb, ht⟩ := hmaskrow j hj
    have m1 := mul_apart (item := arr.lay.item) hj
    have m2 := mul_apart (item := vals.lay.item) (show j < vals.lay.len by omega)
    have hthere : ∀ (i : Nat), i < arr.lay.item → (M' (arr.base + ((arr.lay.item * j : Nat) : Int) + i)).isSome = true := by
      intro i hi
      rw [hF.there]
      exact h.packedArr.there _ (by omega) (by omega)
    unfold putRow
    rw [frame_mask h hF hj, hb, Option.bind_some]
    by_cases hz : b = 0#8
    · subst hz
      rw [if_pos rfl, ht, if_neg (by simp)]
      rfl
    · have ht' : (truth M mask)[j]? = some true := by rw [ht]; simp [hz]
      rw [if_neg hz, if_pos ht']
      obtain ⟨x, hx1, hx2⟩ := hx j _ (places_at h.packedVals (by omega)) ht'
      rcases hfast with ⟨he, rfl⟩ | ⟨he, hnf⟩
      · have hii : vals.lay.item = arr.lay.item := by rw [hia, hiv, he]
        simp only
        rw [move_over ?_ hthere]
        · congr 1
          apply over_congr
          intro q hq
          unfold putBytes byteAt
          simp only
          rw [hval j hj M' hF q (by omega)]
        · intro i hi
          rw [hF.there]
          exact h.packedVals.there _ (by omega) (by omega)
      · obtain ⟨k', p1, p2, y, p3, p4⟩ := put_item w nan (by omega) (by omega) he hx1.1 hx2
        rw [hk] at p1
        have := Option.some.inj p1
        subst this
        have hload : ∀ M1 : Mem, (∀ (q : Nat), q < vals.lay.item → M1 (vals.base + ((vals.lay.item * j : Nat) : Int) + q) = M (vals.base + ((vals.lay.item * j : Nat) : Int) + q)) →
            loadItem vals.type M1 (vals.base + ((vals.lay.item * j : Nat) : Int)) = some x := by
          intro M1 hM1
          refine load_val hv ⟨hx1.1, hasBits_congr ?_ hx1.2⟩
          intro q hq
          exact hM1 q (by omega)
        have hl1 := hload M' (hval j hj M' hF)
        have hl0 := hload M (fun _ _ => rfl)
        have hpb : putBytes w nan k M arr vals j = fun q => BitVec.ofNat 8 ((y % 2 ^ (8 * arr.lay.item)).toNat / 256 ^ q) := by
          cases hkk : k with
          | fast n => exact absurd hkk (hnf n)
          | toBool T => rw [hkk] at p3; unfold putBytes; simp only; rw [hl0, Option.bind_some, p3]; rfl
          | ints T U => rw [hkk] at p3; unfold putBytes; simp only; rw [hl0, Option.bind_some, p3]; rfl
          | floats T U => rw [hkk] at p3; unfold putBytes; simp only; rw [hl0, Option.bind_some, p3]; rfl
        rw [hpb, ← storeItem_over hthere]
        cases hkk : k with
        | fast n => exact absurd hkk (hnf n)
        | toBool T => rw [hkk] at p3; simp only; rw [hl1, Option.bind_some, p3]; rfl
        | ints T U => rw [hkk] at p3; simp only; rw [hl1, Option.bind_some, p3]; rfl
        | floats T U => rw [hkk] at p3; simp only; rw [hl1, Option.bind_some, p3]; rfl
  obtain ⟨ws, w1, w2⟩ := elemWork_perm (fun _ => some ()) (fun _ => ()) (n := arr.lay.len) (fun _ _ => rfl) hpar
  have hperm : (ws.map Prod.fst).Perm (List.range arr.lay.len) := by
    have := w2.map Prod.fst
    rw [List.map_map] at this
    simpa [Function.comp_def] using this
  obtain ⟨M', f1, f2, f3⟩ := fold_rows h.packedArr.there hrow (ws.map Prod.fst) (hperm.nodup_iff.2 List.nodup_range)
    (fun j hj => List.mem_range.1 (hperm.mem_iff.1 hj)) M (frame_refl _ _ _)
  refine ⟨M', ?_, hw, ?_, ?_, fun o hout => f2.out o (rest_out h.packedArr hout)⟩
  · unfold putArrays
    rw [if_pos hfit, hk]
    simp only
    unfold putRows
    rw [if_neg (by intro hc; have := hsmall hc.1; omega), w1, Option.bind_some, f1]
    rfl
  · intro j p q x hp hq ht hxv
    have hj : j < arr.lay.len := by
      obtain ⟨hj, _⟩ := List.getElem?_eq_some_iff.1 hp
      rw [places_length h.packedArr] at hj; exact hj
    obtain ⟨x', hx1, hx2⟩ := hx j q hq ht
    rw [ho'] at hxv
    have hxx : x' = x := by
      have e1 := load_val hv hx1
      have e2 := load_val hv hxv
      rw [e1] at e2
      exact Option.some.inj e2
    subst hxx
    rw [places_at h.packedArr hj, Option.some.injEq] at hp
    rw [places_at h.packedVals (by omega), Option.some.injEq] at hq
    subst hp
    subst hq
    rw [ho]
    have hb : ∀ (i : Nat), i < arr.lay.item → M' (arr.base + ((arr.lay.item * j : Nat) : Int) + i) = some (putBytes w nan k M arr vals j i) := by
      intro i hi
      rw [f3 j hj i hi, if_pos (hperm.mem_iff.2 (List.mem_range.2 hj)), if_pos ht]
      rfl
    rcases hfast with ⟨he, rfl⟩ | ⟨he, hnf⟩
    · refine ⟨x', ?_, .carried (by rw [he]; exact .same _ _)⟩
      rw [← he]
      refine hasBits_congr ?_ hx1.2
      intro i hi
      rw [hb i (by rw [hia, ← he]; exact hi)]
      unfold putBytes
      simp only
      refine byteAt_some (h.packedVals.there _ (by omega) ?_)
      have := mul_apart (item := vals.lay.item) (show j < vals.lay.len by omega)
      omega
    · obtain ⟨k', p1, p2, y, p3, p4⟩ := put_item w nan (by omega) (by omega) he hx1.1 hx2
      rw [hk] at p1
      have := Option.some.inj p1
      subst this
      refine ⟨y, ⟨pattern_lt y _, ?_⟩, p4⟩
      intro i hi
      simp only [Bool.false_eq_true, if_false] at hi ⊢
      rw [bytesOf_length] at hi
      rw [bytesOf_get _ _ _ hi, hb i (by omega), ← hia]
      have hl0 := load_val hv hx1
      congr 1
      cases hkk : k with
      | fast n => exact absurd hkk (hnf n)
      | toBool T => rw [hkk] at p3; unfold putBytes; simp only; rw [hl0, Option.bind_some, p3]; rfl
      | ints T U => rw [hkk] at p3; unfold putBytes; simp only; rw [hl0, Option.bind_some, p3]; rfl
      | floats T U => rw [hkk] at p3; unfold putBytes; simp only; rw [hl0, Option.bind_some, p3]; rfl
  · intro j p hp ht
    have hj : j < arr.lay.len := by
      obtain ⟨hj, _⟩ := List.getElem?_eq_some_iff.1 hp
      rw [places_length h.packedArr] at hj; exact hj
    rw [places_at h.packedArr hj, Option.some.injEq] at hp
    subst hp
    apply bytes_eq
    intro i hi
    rw [f3 j hj i hi, if_pos (hperm.mem_iff.2 (List.mem_range.2 hj)), if_neg (by rw [ht]; simp)]
    rfl

/-- C158 for `PutMask`, the part that is true: arrays of numbers which are packed and apart, in the machine's order of bytes, values which are `Fine`, and an array which may be
written to; without threads, fewer than 2^31 rows. Under every schedule the masked rows get the values of the same rows, and nothing else is changed. -/
theorem put_mask_partial {w : Wide} {nan : Int → Bool} {M : Mem} {arr mask vals : View} (h : Trio M arr mask vals) (hw : arr.writable = true)
    (ho : arr.swapped = false) (ho' : vals.swapped = false) (ha : arr.type ≤ 13) (hv : vals.type ≤ 13) (hia : arr.lay.item = size arr.type)
    (hiv : vals.lay.item = size vals.type) (hlen : vals.lay.len = arr.lay.len) (hm : mask.type = 0)
    (hs : arr.lay.len ≤ 1 ∨ arr.lay.strides.head? = some (arr.lay.item : Int))
    (hx : ∀ (j : Nat) q, (places vals)[j]? = some q → (truth M mask)[j]? = some true → ∃ x, HasVal vals.type false M q x ∧ Fine w vals.type arr.type x)
    (hk13 : vals.type = arr.type ∨ vals.type ≤ 12 ∧ arr.type ≤ 12) {v : Value} (hval : v = .array vals ∨ v = .made (some vals))
    {workers : Nat} {nt : Bool} {par : Option (List Nat)} (hpar : ChunkSched workers arr.lay.len nt par) (hsmall : par = none → arr.lay.len < 2147483648) :
    ∃ M', putMask w nan M (.three (.array arr) (.array mask) v) par = .done M' ∧ Replaced w M arr mask vals M' := by
  have he : putMask w nan M (.three (.array arr) (.array mask) v) par = putArrays w nan M arr mask vals par := by rcases hval with rfl | rfl <;> rfl
  rw [he]
  exact put_arrays h hw ho ho' ha hv hia hiv hlen hm hs hx hk13 hpar hsmall

/-- `PutMask` raises an exception for fewer than three arguments, and answers `False` without changing anything for other things than arrays, a mask which is not boolean, lengths
which differ, rows which are not one after the other, and for types which are not those of numbers. -/
theorem put_mask_refuses (w : Wide) (nan : Int → Bool) (M : Mem) (par : Option (List Nat)) :
    putMask w nan M .few par = .error ∧
    (∀ (g : Given) (v : View), putMask w nan M (.three .other g (.array v)) par = .refused false ∧ putMask w nan M (.three g .other (.array v)) par = .refused false) ∧
    (∀ (arr mask vals : View), mask.type ≠ 0 ∨ arr.lay.len ≠ mask.lay.len ∨ arr.lay.len ≠ vals.lay.len ∨
        1 < arr.lay.len ∧ arr.lay.strides.head? ≠ some (arr.lay.item : Int) ∨ 13 < arr.type ∨ 13 < vals.type →
      putMask w nan M (.three (.array arr) (.array mask) (.array vals)) par = .refused false) := by
  refine ⟨rfl, fun g v => ⟨by cases g <;> rfl, by cases g <;> rfl⟩, ?_⟩
  intro arr mask vals hc
  show putArrays w nan M arr mask vals par = _
  unfold putArrays
  by_cases hf : putFits arr mask vals = true
  · rw [if_pos hf]
    unfold putFits at hf
    rw [decide_eq_true_iff] at hf
    have h13 : 13 < arr.type ∨ 13 < vals.type := by
      rcases hc with hc | hc | hc | hc | hc
      · exact absurd hf.1 hc
      · exact absurd hf.2.1 hc
      · exact absurd hf.2.2.2 hc
      · rcases hf.2.2.1 with h3 | h3
        · omega
        · exact absurd h3 hc.2
      · exact hc
    have hnone : ∀ ty, 13 < ty → ctOf ty = none := by
      intro ty hty
      unfold ctOf
      split <;> first | omega | rfl
    have : putKern vals.type arr.type = none := by
      unfold putKern
      by_cases he : vals.type = arr.type
      · rw [if_pos he, hnone _ (by omega)]; rfl
      · rw [if_neg he]
        rcases h13 with h13 | h13
        · rw [hnone _ h13]; cases inOf vals.type <;> rfl
        · unfold inOf
          rw [if_neg (by omega), hnone _ h13]
    rw [this]
  · rw [if_neg hf]

/-- `ApplyRows` raises an exception for fewer than two arguments, for something which cannot be called, for arrays which `BuildArrayInfo` refuses, and for types which are not those
of numbers. -/
theorem apply_rows_partial (table : Bool) (copies : Nat → Bool) (o : Info.Obj) (d : Stack.Dtype) :
    (∀ n f, n < 2 → applyRows table copies n o d f = .error) ∧ (∀ n, 2 < n → applyRows table copies n o d .data = .error) ∧
    (∀ n, 2 < n → Info.build table copies true true o = .refused → applyRows table copies n o d .function = .error) ∧
    (∀ n es t k, 2 < n → Info.build table copies true true o = .ok es t → d = .number k → (k < -1 ∧ -2147483648 ≤ k ∨ 13 < k ∧ k ≤ 2147483647) →
      applyRows table copies n o d .function = .error) := by
  refine ⟨?_, ?_, ?_, ?_⟩
  · intro n f h; unfold applyRows; rw [if_pos h]
  · intro n h; unfold applyRows; rw [if_neg (by omega), if_neg (by omega)]
  · intro n h hb; unfold applyRows; rw [if_neg (by omega), if_neg (by omega)]; simp only; rw [hb]
  · intro n es t k h hb hd hk
    subst hd
    unfold applyRows
    rw [if_neg (by omega), if_neg (by omega)]
    simp only
    rw [hb]
    simp only
    have hw : Stack.asType (.number k) = (k, false) := by
      unfold Stack.asType
      simp only
      rw [if_pos (by omega), IT.wrap_of_inRange .i32 (by decide) (by unfold IT.InRange; constructor <;> simp [IT.lo, IT.hi, IT.i32] <;> omega)]
    unfold applyTable
    rw [hw]
    simp only
    rw [if_pos (by omega), if_pos (by omega)]

end Riptide.Nums.Assign
