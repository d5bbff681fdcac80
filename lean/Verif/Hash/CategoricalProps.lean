import Verif.Hash.Categorical
import Verif.Hash.CategoricalSpec
import Verif.Hash.StrProps
import Verif.Hash.FloatProps
import Verif.Hash.BytesProps
/-! # Positions among categories (C124) -/
namespace Riptide.Hash
open Spec Riptide.Work Riptide.Str Riptide.Str.Spec

theorem firstAt_congr {K : Type} {s t : K → Prop} {b : List K} {j : Nat} (h : ∀ y ∈ b, s y ↔ t y)
    (hf : FirstAt s b j) : FirstAt t b j := by
  obtain ⟨⟨y, hy, hs⟩, hm⟩ := hf
  exact ⟨⟨y, hy, (h y (List.mem_of_getElem? hy)).mp hs⟩,
    fun i y' hi hy' ht => hm i y' hi hy' ((h y' (List.mem_of_getElem? hy')).mpr ht)⟩

theorem firstAt_map {K L : Type} (f : L → K) {s : K → Prop} {b : List L} {j : Nat}
    (hf : FirstAt s (b.map f) j) : FirstAt (fun y => s (f y)) b j := by
  obtain ⟨⟨y, hy, hs⟩, hm⟩ := hf
  rw [List.getElem?_map] at hy
  cases hb : b[j]? with
  | none => rw [hb] at hy; simp at hy
  | some z =>
    rw [hb] at hy
    simp only [Option.map_some, Option.some.injEq] at hy
    subst hy
    refine ⟨⟨z, hb, hs⟩, fun i y' hi hy' => hm i (f y') hi ?_⟩
    rw [List.getElem?_map, hy']; rfl

theorem cats_map {K L : Type} (f : L → K) {same : K → K → Prop} {same' : L → L → Prop} {a b : List L}
    {out : List Int} {missed : Bool} (h : ∀ x ∈ a, ∀ y ∈ b, same (f y) (f x) ↔ same' y x)
    (hc : AreCategories same (a.map f) (b.map f) out missed) : AreCategories same' a b out missed := by
  obtain ⟨h1, h2, h3⟩ := hc
  refine ⟨by simpa using h1, fun i x r hx hr => ?_, ?_⟩
  · have hxa := List.mem_of_getElem? hx
    rcases h2 i (f x) r (by rw [List.getElem?_map, hx]; rfl) hr with ⟨j, e, hf⟩ | ⟨e, hn⟩
    · exact .inl ⟨j, e, firstAt_congr (fun y hy => h x hxa y hy) (firstAt_map f hf)⟩
    · exact .inr ⟨e, fun y hy hs => hn (f y) (List.mem_map_of_mem hy) ((h x hxa y hy).mpr hs)⟩
  · rw [h3]
    constructor
    · rintro ⟨x, hx, hn⟩
      obtain ⟨z, hz, rfl⟩ := List.mem_map.mp hx
      exact ⟨z, hz, fun y hy hs => hn (f y) (List.mem_map_of_mem hy) ((h z hz y hy).mpr hs)⟩
    · rintro ⟨x, hx, hn⟩
      refine ⟨f x, List.mem_map_of_mem hx, fun y hy hs => ?_⟩
      obtain ⟨z, hz, rfl⟩ := List.mem_map.mp hy
      exact hn z hz ((h x hx z hz).mp hs)

/-- The lookup for any hash and any schedule, in terms of the comparison. -/
theorem catRun_exact {K : Type} {P : K → Prop} (t : IT)
    (ht : t = .i8 ∨ t = .i16 ∨ t = .i32 ∨ t = .i64) (ins : K → Bool) (hash : K → Nat) (eq : K → K → Bool)
    (size : Nat) (L : Laws P hash eq size) (a b : List K)
    (ha : ∀ x ∈ a, ins x = true → P x) (hb : ∀ x ∈ b, ins x = true → P x)
    (hroom : distinct eq (b.filter ins) < size) (hlen : b.length ≤ 2 ^ (t.bits - 1))
    {workers : Nat} {nt : Bool} {par : Option (List Nat)} (hs : ChunkSched workers a.length nt par) :
    ∃ (out : List Int) (missed : Bool), catRun t ins hash eq size a b par = some (out.map some, missed) ∧
      AreCategories (fun y x => ins y = true ∧ ins x = true ∧ eq y x = true) a b out missed := by
  obtain ⟨tb, e, B⟩ := insertAll_spec (ins := ins) (val := fun i : Nat => t.wrap (i : Int)) L b []
    (fresh _ Int size) (built_fresh P ins hash eq _ size)
    (fun x hx => hb x (by simpa using hx)) (by simpa using hroom)
  let ans : K → Int := fun x =>
    if ins x = true then
      match b.findIdx? (fun y => ins y && eq y x) with
      | some j => (j : Int) + 1
      | none => 0
    else 0
  have hwrap : ∀ j, j < b.length → t.wrap (j : Int) = (j : Int) := by
    intro j hj
    rcases ht with rfl | rfl | rfl | rfl
    all_goals
      apply IT.wrap_of_inRange _ (by decide)
      simp only [IT.InRange, IT.lo, IT.hi, IT.i8, IT.i16, IT.i32, IT.i64] at *
      simp at *
      omega
  have hone : ∀ x ∈ a, catOneIf ins hash eq tb x = some (ans x) := by
    intro x hx
    unfold catOneIf
    by_cases hi : ins x = true
    · rw [if_pos hi]
      unfold catOne
      rw [built_find L B (by simpa using hroom) x (ha x hx hi)]
      simp only [List.nil_append, ans, if_pos hi]
      cases hfi : b.findIdx? (fun y => ins y && eq y x) with
      | none => rfl
      | some j =>
        simp only [Option.map_some]
        rw [hwrap j (List.findIdx?_eq_some_iff_getElem.mp hfi).1]
    · rw [if_neg hi]; simp only [ans, if_neg hi]
  have hans : ∀ x, (∃ j : Nat, ans x = (j : Int) + 1 ∧
        FirstAt (fun y => ins y = true ∧ ins x = true ∧ eq y x = true) b j) ∨
        (ans x = 0 ∧ ∀ y ∈ b, ¬ (ins y = true ∧ ins x = true ∧ eq y x = true)) := by
    intro x
    by_cases hi : ins x = true
    · have hiff : ∀ y ∈ b, (ins y && eq y x) = true ↔ (ins y = true ∧ ins x = true ∧ eq y x = true) := by
        intro y _; rw [Bool.and_eq_true]; exact ⟨fun h => ⟨h.1, hi, h.2⟩, fun h => ⟨h.1, h.2.2⟩⟩
      simp only [ans, if_pos hi]
      cases hfi : b.findIdx? (fun y => ins y && eq y x) with
      | none => exact .inr ⟨rfl, findIdx?_none hiff hfi⟩
      | some j => exact .inl ⟨j, rfl, findIdx?_firstAt hiff hfi⟩
    · right
      exact ⟨if_neg hi, fun y _ h => hi h.2.1⟩
  refine ⟨a.map ans, a.any fun x => decide (ans x = 0), ?_, by simp, ?_, ?_⟩
  · have e' : insertAll ins hash eq (fun i : Nat => t.wrap (i : Int)) 0 b (fresh _ Int size) = .ok tb := e
    unfold catRun
    rw [e']
    dsimp only
    have := elemWork_exact (n := a.length) (fun i => (a[i]?).bind (catOneIf ins hash eq tb))
        (fun i => ((a[i]?).map ans).getD 0)
        (fun i hi => by
          rw [List.getElem?_eq_getElem hi, Option.bind_some, hone _ (List.getElem_mem hi)]
          simp) hs
    rw [this]
    simp only [Option.map_some, Option.some.injEq, Prod.mk.injEq]
    constructor
    · congr 1
      apply List.ext_getElem?
      intro i
      by_cases hi : i < a.length
      · simp [hi]
      · rw [List.getElem?_eq_none (by simp; omega), List.getElem?_eq_none (by simp; omega)]
    · rw [Bool.eq_iff_iff, List.any_eq_true, List.any_eq_true]
      constructor
      · rintro ⟨x, hx, h⟩; exact ⟨x, hx, by rw [hone x hx] at h; simpa using h⟩
      · rintro ⟨x, hx, h⟩; exact ⟨x, hx, by rw [hone x hx]; simpa using h⟩
  · intro i x r hx hr
    rw [List.getElem?_map, hx] at hr
    simp only [Option.map_some, Option.some.injEq] at hr
    subst hr
    exact hans x
  · rw [List.any_eq_true]
    constructor
    · rintro ⟨x, hx, h⟩
      have h0 : ans x = 0 := by simpa using h
      rcases hans x with ⟨j, hj, _⟩ | ⟨_, h'⟩
      · omega
      · exact ⟨x, hx, h'⟩
    · rintro ⟨x, hx, h⟩
      refine ⟨x, hx, ?_⟩
      rcases hans x with ⟨j, _, ⟨y, hy, hm⟩, _⟩ | ⟨h', _⟩
      · exact absurd hm (h y (List.mem_of_getElem? hy))
      · simpa using h'

theorem room_of_alloc {K : Type} (mode : Mode) (isFloat : Bool) (ins : K → Bool) (eq : K → K → Bool) (b : List K)
    (hn : b.length < 68719476731) :
    ∃ size, allocSize mode (hintOr 0 b.length) isFloat = some size ∧ distinct eq (b.filter ins) < size ∧
      (mode = .mask → 65536 ≤ size) := by
  have hd : distinct eq (b.filter ins) ≤ b.length :=
    Nat.le_trans (distinct_le eq _) (List.length_filter_le _ _)
  rw [show hintOr 0 b.length = b.length by simp [hintOr]]
  cases mode with
  | prime =>
    obtain ⟨s, h1, h2, _⟩ := prime_size_partial b.length isFloat hn
    exact ⟨s, h1, by omega, nofun⟩
  | mask =>
    obtain ⟨s, k, h1, _, h3, h2, _⟩ := mask_size b.length isFloat (by omega)
    exact ⟨s, h1, by omega, fun _ => h3⟩

theorem slotOf_lt (mode : Mode) (H : Nat → Nat) {size : Nat} (hs : 0 < size) (x : Nat) :
    slotOf mode H size x < size := by
  cases mode with
  | prime => exact Nat.mod_lt _ hs
  | mask => exact Nat.lt_of_le_of_lt Nat.and_le_right (by omega)

theorem numOut_cases (n : Nat) : numOut n = .i32 ∨ numOut n = .i64 := by
  unfold numOut; split <;> simp

theorem strOut_cases (n : Nat) : strOut n = .i8 ∨ strOut n = .i16 ∨ strOut n = .i32 ∨ strOut n = .i64 := by
  unfold strOut
  split
  · simp
  · split
    · simp
    · split <;> simp

/-- Every category number fits the output of strings. -/
theorem strOut_fits (n : Nat) (h : n < 2 ^ 63) : n ≤ 2 ^ ((strOut n).bits - 1) ∧ n < 2 ^ ((strOut n).bits - 1) := by
  unfold strOut
  repeat' split
  all_goals
    simp only [IT.i8, IT.i16, IT.i32, IT.i64]
    simp at *
    omega

theorem catInts_exact (H : Nat → Nat → Nat) (mode : Mode) (width : Nat) (a b : List Nat)
    (hw : (width = 4 ∨ width = 8) ∨ ((width = 1 ∨ width = 2) ∧ mode = .mask ∧ (∀ x ∈ a, x < 65536) ∧ ∀ x ∈ b, x < 65536))
    (hn : b.length ≤ 2 ^ 31) :
    ∃ (out : List Int) (missed : Bool), catInts H mode 0 width a b = some (.cats missed (out.map some)) ∧
      AreCategories (fun y x => y = x) a b out missed := by
  have ht : numOut a.length = .i8 ∨ numOut a.length = .i16 ∨ numOut a.length = .i32 ∨ numOut a.length = .i64 := by
    rcases numOut_cases a.length with h | h <;> simp [h]
  have hfit : b.length ≤ 2 ^ ((numOut a.length).bits - 1) := by
    rcases numOut_cases a.length with h | h <;> rw [h] <;> simp only [IT.i32, IT.i64] <;> simp at * <;> omega
  obtain ⟨size, h1, h2, h3⟩ := room_of_alloc mode false (fun _ => true) (fun x y : Nat => decide (x = y)) b
    (by simp at hn; omega)
  have fin : ∀ {r : Option (List (Option Int) × Bool)},
      (∃ (out : List Int) (missed : Bool), r = some (out.map some, missed) ∧
        AreCategories (fun y x => (fun _ : Nat => true) y = true ∧ (fun _ : Nat => true) x = true ∧ decide (y = x) = true) a b out missed) →
      ∃ (out : List Int) (missed : Bool), catReply r = some (.cats missed (out.map some)) ∧
        AreCategories (fun y x => y = x) a b out missed := by
    rintro r ⟨out, m, rfl, hc⟩
    refine ⟨out, m, rfl, ?_⟩
    have : (fun y x : Nat => (fun _ : Nat => true) y = true ∧ (fun _ : Nat => true) x = true ∧ decide (y = x) = true) =
        fun y x => y = x := by funext y x; simp
    rwa [this] at hc
  unfold catInts
  rcases hw with hw | ⟨hw, hm, hxa, hxb⟩
  · rw [if_neg (by omega), if_pos hw, h1, Option.bind_some]
    exact fin (catRun_exact (P := fun _ => True) _ ht _ _ _ size
      (laws_decEq _ size (slotOf_lt mode (H width) (by omega))) a b (fun _ _ _ => trivial) (fun _ _ _ => trivial)
      h2 hfit (workers := 0) (nt := true) (.direct (.inr rfl)))
  · rw [if_pos hw, h1, Option.bind_some]
    have hs := h3 hm
    have L : Laws (fun x : Nat => x < size) id (fun x y : Nat => decide (x = y)) size :=
      { refl := by simp
        symm := by intro a b _ _ h; simpa using (by simpa using h : a = b).symm
        trans := by
          intro a b c _ _ _ h1 h2
          have h1 : a = b := by simpa using h1
          have h2 : b = c := by simpa using h2
          simp [h1, h2]
        hashEq := by
          intro a b _ _ h
          have h : a = b := by simpa using h
          rw [h]
        range := fun _ h => h }
    exact fin (catRun_exact _ ht _ _ _ size L a b (fun x hx _ => by have := hxa x hx; omega)
      (fun x hx _ => by have := hxb x hx; omega)
      h2 hfit (workers := 0) (nt := true) (.direct (.inr rfl)))

theorem catFloats_exact (H : Nat → Nat → Nat) (mode : Mode) (width : Nat) (hw : width = 4 ∨ width = 8)
    (a b : List Nat) (f : FT) (hf : f = if width = 4 then FT.f32 else FT.f64)
    (ha : ∀ x ∈ a, f.Ok x) (hb : ∀ x ∈ b, f.Ok x) (z : Nat) (hz : IsZero f z) (hza : z ∉ a) (hzb : z ∉ b)
    (hn : b.length ≤ 2 ^ 31) :
    ∃ (out : List Int) (missed : Bool), catFloats H mode 0 width a b = some (.cats missed (out.map some)) ∧
      AreCategories (fun y x => SameFloat f y x) a b out missed := by
  have ht : numOut a.length = .i8 ∨ numOut a.length = .i16 ∨ numOut a.length = .i32 ∨ numOut a.length = .i64 := by
    rcases numOut_cases a.length with h | h <;> simp [h]
  have hfit : b.length ≤ 2 ^ ((numOut a.length).bits - 1) := by
    rcases numOut_cases a.length with h | h <;> rw [h] <;> simp only [IT.i32, IT.i64] <;> simp at * <;> omega
  obtain ⟨size, h1, h2, _⟩ := room_of_alloc mode true (fun x => f.eq x x) f.eq b (by simp at hn; omega)
  have hself : ∀ x, f.eq x x = true → f.isNan x = false := by
    intro x h; unfold FT.eq at h; simp at h; exact h
  obtain ⟨out, m, e, hc⟩ := catRun_exact _ ht (fun x => f.eq x x) (slotOf mode (H (100 + width)) size) f.eq size
    (laws_float f _ size z hz (slotOf_lt mode (H (100 + width)) (by omega))) a b
    (fun x hx hi => ⟨ha x hx, hself x hi, fun e => hza (e ▸ hx)⟩)
    (fun x hx hi => ⟨hb x hx, hself x hi, fun e => hzb (e ▸ hx)⟩) h2 hfit (workers := 0) (nt := true)
    (par := none) (.direct (.inr rfl))
  refine ⟨out, m, ?_, ?_⟩
  · unfold catFloats
    rw [if_pos hw, h1, Option.bind_some, ← hf, e]; rfl
  · have := cats_map (K := Nat) (L := Nat) (fun x => x) (same' := fun y x => SameFloat f y x) (a := a) (b := b)
      (out := out) (missed := m) (same := fun y x => f.eq y y = true ∧ f.eq x x = true ∧ f.eq y x = true) ?_
      (by simpa using hc)
    · exact this
    · intro x hx y hy
      rw [← eq_iff_same f (hb y hy) (ha x hx)]
      refine ⟨fun h => h.2.2, fun h => ⟨?_, ?_, h⟩⟩
      · unfold FT.eq at *; simp only [Bool.and_eq_true] at *; exact ⟨⟨h.1.1, h.1.1⟩, by simp⟩
      · unfold FT.eq at *; simp only [Bool.and_eq_true] at *; exact ⟨⟨h.1.2, h.1.2⟩, by simp⟩

theorem catStrs_exact (HS : List Nat → Nat) (mode : Mode) (a b : List (List Nat)) (P : List Nat → Prop)
    (hP : ∀ a b, P a → P b → a.length = b.length ∨ (NoInnerNul a ∧ NoInnerNul b))
    (ha : ∀ x ∈ a, P x) (hb : ∀ x ∈ b, P x) (hn : b.length < 68719476731)
    {workers : Nat} {nt : Bool} {par : Option (List Nat)} (hs : ChunkSched workers a.length nt par) :
    ∃ (out : List Int) (missed : Bool), catStrs HS mode 0 a b par = some (.cats missed (out.map some)) ∧
      AreCategories (fun y x => content y = content x) a b out missed := by
  obtain ⟨size, h1, h2, _⟩ := room_of_alloc mode false (fun _ => true) strMatch b hn
  obtain ⟨out, m, e, hc⟩ := catRun_exact _ (strOut_cases b.length) (fun _ => true) (strHash HS size) strMatch size
    (laws_str HS size (by omega) P hP) a b (fun x hx _ => ha x hx) (fun x hx _ => hb x hx) h2
    (strOut_fits b.length (by simp; omega)).1 hs
  refine ⟨out, m, ?_, ?_⟩
  · unfold catStrs
    rw [h1, Option.bind_some, e]; rfl
  · have := cats_map (K := List Nat) (L := List Nat) (fun x => x)
      (same' := fun y x => content y = content x) (a := a) (b := b)
      (out := out) (missed := m) (same := fun y x => true = true ∧ true = true ∧ strMatch y x = true) ?_
      (by simpa using hc)
    · exact this
    · intro x hx y hy
      rw [strMatch_iff (hP y x (hb y hy) (ha x hx))]
      simp

theorem read_packed {a : CatArr} {l : List (List UInt8)} (hst : a.step = 1 ∨ a.rows ≤ 1)
    (he : Elements a.cells a.rows a.step l) : a.read = some l := by
  obtain ⟨h1, h2⟩ := he
  have hi : ∀ i, i < a.rows → ∃ c, a.cells[i]? = some c ∧ l[i]? = some c := by
    intro i hi
    obtain ⟨c, hc, hl⟩ := h2 i hi
    refine ⟨c, ?_, hl⟩
    rcases hst with h | h
    · rw [h, Nat.mul_one] at hc; exact hc
    · have : i = 0 := by omega
      subst this; simpa using hc
  have hlen : a.rows ≤ a.cells.length := by
    by_cases h0 : a.rows = 0
    · omega
    · obtain ⟨c, hc, _⟩ := hi (a.rows - 1) (by omega)
      have := (List.getElem?_eq_some_iff.mp hc).1
      omega
  unfold CatArr.read
  rw [if_pos hlen]
  congr 1
  apply List.ext_getElem?
  intro i
  by_cases h : i < a.rows
  · obtain ⟨c, hc, hl⟩ := hi i h
    rw [List.getElem?_take_of_lt h, hc, hl]
  · rw [List.getElem?_eq_none (by simp; omega), List.getElem?_eq_none (by omega)]

theorem entry_numbers {H : Nat → Nat → Nat} {HS : List Nat → Nat} {mode : Mode} {hint : Nat} {a b : CatArr}
    {par : Option (List Nat)} {x y : List (List UInt8)} (h1 : catTy a.ty = catTy b.ty) (h2 : 0 < a.width)
    (h3 : catTy a.ty < 17) (hx : a.read = some x) (hy : b.read = some y) :
    isMemberCategorical H HS mode hint a b par =
      if catTy a.ty = 11 ∨ catTy a.ty = 12 ∨ catTy a.ty = 13 then
        catFloats H mode hint a.width (x.map leWord) (y.map leWord)
      else catInts H mode hint a.width (x.map leWord) (y.map leWord) := by
  unfold isMemberCategorical
  rw [if_neg (by simpa using h1), if_neg (by omega), if_neg (by omega), hx, hy, Option.bind_some, Option.bind_some,
    if_neg (by omega)]

theorem leWord_lt_pow : ∀ b : List UInt8, leWord b < 256 ^ b.length
  | [] => by simp [leWord]
  | x :: xs => by
    have := leWord_lt_pow xs
    have hx := x.toNat_lt
    simp only [leWord, List.length_cons, Nat.pow_succ]
    omega

/-- **C124**, whole numbers: bool, characters and integers of 1, 2, 4 and 8 bytes get the number of the
first equal category, for every hash function — *for arrays that are packed, in mask mode for the
small types, with the table sized for all categories, and up to 2^31 categories*.  What is missing:
`strides_are_ignored`, `small_types_leave_the_table_in_prime_mode`, `small_hint_fails` (C11). -/
theorem integer_categories_partial (H : Nat → Nat → Nat) (HS : List Nat → Nat) (mode : Mode) (a b : CatArr)
    (par : Option (List Nat)) (hty : catTy a.ty = catTy b.ty) (hint : catTy a.ty < 11) (hab : b.width = a.width)
    (hw : a.width = 4 ∨ a.width = 8 ∨ ((a.width = 1 ∨ a.width = 2) ∧ mode = .mask))
    (hsa : a.step = 1 ∨ a.rows ≤ 1) (hsb : b.step = 1 ∨ b.rows ≤ 1) (hn : b.rows ≤ 2 ^ 31)
    (x y : List (List UInt8)) (hx : Elements a.cells a.rows a.step x) (hy : Elements b.cells b.rows b.step y)
    (hxw : ∀ c ∈ x, c.length = a.width) (hyw : ∀ c ∈ y, c.length = b.width) :
    ∃ (out : List Int) (missed : Bool),
      isMemberCategorical H HS mode 0 a b par = some (.cats missed (out.map some)) ∧
      AreCategories (fun v u => v = u) x y out missed := by
  have small : ∀ {l : List (List UInt8)}, (∀ c ∈ l, c.length = a.width) → (a.width = 1 ∨ a.width = 2) →
      ∀ v ∈ l.map leWord, v < 65536 := by
    intro l hl h v hv
    obtain ⟨c, hc, rfl⟩ := List.mem_map.mp hv
    have h1 := leWord_lt_pow c
    rw [hl c hc] at h1
    rcases h with h | h <;> rw [h] at h1 <;> omega
  obtain ⟨out, m, e, hc⟩ := catInts_exact H mode a.width (x.map leWord) (y.map leWord)
    (by
      rcases hw with h | h | ⟨h, hm⟩
      · exact .inl (.inl h)
      · exact .inl (.inr h)
      · exact .inr ⟨h, hm, small hxw h, small (fun c hc => (hyw c hc).trans hab) h⟩)
    (by rw [List.length_map, hy.1]; exact hn)
  refine ⟨out, m, ?_, cats_map leWord (fun u hu v hv => ?_) hc⟩
  · rw [entry_numbers hty (by omega) (by omega) (read_packed hsa hx) (read_packed hsb hy), if_neg (by omega), e]
  · exact ⟨fun h => leWord_inj (by rw [hxw u hu, hyw v hv, hab]) h, fun h => by rw [h]⟩

/-- **C124**, floats: numeric equality, and NaN has no category — *for packed arrays with zeros of one
sign*.  What is missing: `strides_are_ignored`, `signed_zeros_are_no_categories`. -/
theorem float_categories_partial (H : Nat → Nat → Nat) (HS : List Nat → Nat) (mode : Mode) (a b : CatArr)
    (par : Option (List Nat)) (f : FT) (hta : (a.ty = 11 ∧ a.width = 4 ∧ f = FT.f32) ∨ (a.ty = 12 ∧ a.width = 8 ∧ f = FT.f64))
    (htb : b.ty = a.ty ∧ b.width = a.width)
    (hsa : a.step = 1 ∨ a.rows ≤ 1) (hsb : b.step = 1 ∨ b.rows ≤ 1) (hn : b.rows ≤ 2 ^ 31)
    (x y : List (List UInt8)) (hx : Elements a.cells a.rows a.step x) (hy : Elements b.cells b.rows b.step y)
    (hxw : ∀ c ∈ x, c.length = a.width) (hyw : ∀ c ∈ y, c.length = b.width)
    (z : Nat) (hz : IsZero f z) (hzx : ∀ c ∈ x, leWord c ≠ z) (hzy : ∀ c ∈ y, leWord c ≠ z) :
    ∃ (out : List Int) (missed : Bool),
      isMemberCategorical H HS mode 0 a b par = some (.cats missed (out.map some)) ∧
      AreCategories (fun v u => SameFloat f (leWord v) (leWord u)) x y out missed := by
  have ok : ∀ {l : List (List UInt8)}, (∀ c ∈ l, c.length = a.width) → ∀ v ∈ l.map leWord, f.Ok v := by
    intro l hl v hv
    obtain ⟨c, hc, rfl⟩ := List.mem_map.mp hv
    have h1 := leWord_lt_pow c
    rw [hl c hc] at h1
    unfold FT.Ok
    rcases hta with ⟨_, h, rfl⟩ | ⟨_, h, rfl⟩
    · rw [h] at h1; simp only [FT.f32]; simp at *; omega
    · rw [h] at h1; simp only [FT.f64]; simp at *; omega
  have hne : ∀ {l : List (List UInt8)}, (∀ c ∈ l, leWord c ≠ z) → z ∉ l.map leWord := by
    intro l hl hm
    obtain ⟨c, hc, e⟩ := List.mem_map.mp hm
    exact hl c hc e
  have hfw : (a.width = 4 ∨ a.width = 8) ∧ f = if a.width = 4 then FT.f32 else FT.f64 := by
    rcases hta with ⟨_, h, rfl⟩ | ⟨_, h, rfl⟩ <;> simp [h]
  have hty : catTy a.ty = a.ty := by unfold catTy; split <;> (try split) <;> omega
  obtain ⟨out, m, e, hc⟩ := catFloats_exact H mode a.width hfw.1 (x.map leWord) (y.map leWord) f hfw.2
    (ok hxw) (ok fun c hc => (hyw c hc).trans htb.2) z hz (hne hzx) (hne hzy)
    (by rw [List.length_map, hy.1]; exact hn)
  refine ⟨out, m, ?_, cats_map leWord (fun u hu v hv => Iff.rfl) hc⟩
  rw [entry_numbers (by rw [htb.1]) (by omega) (by omega) (read_packed hsa hx) (read_packed hsb hy),
    if_pos (by omega), e]

theorem codeUnits_eq : ∀ s : List UInt8, codeUnits s = charsOf true s
  | [] => rfl
  | [_] => by simp [codeUnits, charsOf]
  | [_, _] => by simp [codeUnits, charsOf]
  | [_, _, _] => by simp [codeUnits, charsOf]
  | a :: b :: c :: d :: r => by
    have ih := codeUnits_eq r
    rw [codeUnits, ih]
    unfold charsOf
    rw [if_pos rfl, if_pos rfl]
    have hl : (a :: b :: c :: d :: r).length / 4 = r.length / 4 + 1 := by simp only [List.length_cons]; omega
    rw [hl, List.range_succ_eq_map, List.map_cons, List.map_map]
    congr 1
    simp [byteAt, leWord]
    omega

theorem catChars_eq (ty : Nat) : catChars ty = charsOf (decide (ty = 19)) := by
  funext s
  unfold catChars
  by_cases h : ty = 19
  · rw [if_pos h, codeUnits_eq, decide_eq_true h]
  · rw [if_neg h, decide_eq_false h]; rfl

/-- **C124**, text: the number of the first category with the same contents, in the smallest type that
holds the number of categories, for every schedule — *for packed arrays of equal widths or strings
without a NUL inside*.  What is missing: `strides_are_ignored`, `inner_nul_matches_prefix` (C12). -/
theorem text_categories_partial (H : Nat → Nat → Nat) (HS : List Nat → Nat) (mode : Mode) (a b : CatArr)
    (hty : a.ty = b.ty) (h18 : 18 ≤ a.ty) (hw : 0 < a.width)
    (hsa : a.step = 1 ∨ a.rows ≤ 1) (hsb : b.step = 1 ∨ b.rows ≤ 1) (hn : b.rows < 68719476731)
    (x y : List (List UInt8)) (hx : Elements a.cells a.rows a.step x) (hy : Elements b.cells b.rows b.step y)
    (hc : (∃ w, ∀ c ∈ x ++ y, (charsOf (decide (a.ty = 19)) c).length = w) ∨ ∀ c ∈ x ++ y, NoInnerNul (charsOf (decide (a.ty = 19)) c))
    {workers : Nat} {nt : Bool} {par : Option (List Nat)} (hs : ChunkSched workers a.rows nt par) :
    ∃ (out : List Int) (missed : Bool),
      isMemberCategorical H HS mode 0 a b par = some (.cats missed (out.map some)) ∧
      AreCategories (fun v u => content (charsOf (decide (a.ty = 19)) v) = content (charsOf (decide (a.ty = 19)) u)) x y out missed := by
  rw [← catChars_eq] at hc ⊢
  have hta : catTy a.ty = a.ty := by unfold catTy; split <;> (try split) <;> omega
  have hs' : ChunkSched workers (x.map (catChars a.ty)).length nt par := by rw [List.length_map, hx.1]; exact hs
  have key : ∃ (out : List Int) (missed : Bool),
      catStrs HS mode 0 (x.map (catChars a.ty)) (y.map (catChars a.ty)) par = some (.cats missed (out.map some)) ∧
      AreCategories (fun v u => content v = content u) (x.map (catChars a.ty)) (y.map (catChars a.ty)) out missed := by
    have mem : ∀ {Q : List Nat → Prop} {l : List (List UInt8)}, (∀ c ∈ l, Q (catChars a.ty c)) →
        ∀ v ∈ l.map (catChars a.ty), Q v := by
      intro Q l hl v hv
      obtain ⟨c, hc, rfl⟩ := List.mem_map.mp hv
      exact hl c hc
    have hl : (y.map (catChars a.ty)).length < 68719476731 := by rw [List.length_map, hy.1]; exact hn
    rcases hc with ⟨w, hc⟩ | hc
    · exact catStrs_exact HS mode _ _ (fun v => v.length = w) (fun _ _ h1 h2 => .inl (h1.trans h2.symm))
        (mem fun c h => hc c (List.mem_append_left _ h)) (mem fun c h => hc c (List.mem_append_right _ h)) hl hs'
    · exact catStrs_exact HS mode _ _ NoInnerNul (fun _ _ h1 h2 => .inr ⟨h1, h2⟩)
        (mem fun c h => hc c (List.mem_append_left _ h)) (mem fun c h => hc c (List.mem_append_right _ h)) hl hs'
  obtain ⟨out, m, e, hk⟩ := key
  refine ⟨out, m, ?_, cats_map (catChars a.ty) (fun u hu v hv => Iff.rfl) hk⟩
  unfold isMemberCategorical
  rw [if_neg (by rw [hty]; simp), if_neg (by omega), if_neg (by omega), read_packed hsa hx, read_packed hsb hy,
    Option.bind_some, Option.bind_some, if_pos (by omega), e]

/-- Text of other types than unicode and of equal widths is compared byte by byte, dates (21, 22) and half
floats (23) included. -/
theorem dates_compare_as_bytes {u v : List UInt8} (hl : u.length = v.length) :
    content (charsOf false v) = content (charsOf false u) ↔ v = u := by
  unfold charsOf
  rw [if_neg (by simp), if_neg (by simp)]
  constructor
  · intro hc
    have := content_inj (by simpa using hl.symm) hc
    exact (List.map_inj_right (fun x y h => UInt8.toNat_inj.mp h)).mp this
  · rintro rfl; rfl

example := @dates_compare_as_bytes [1, 0] [1, 2] rfl

theorem catTy_same (a b : Nat) : catTy a = catTy b ↔ SameTy a b := by
  unfold catTy SameTy
  simp only [List.mem_cons, Prod.mk.injEq, List.not_mem_nil, or_false]
  split <;> split <;> (try split) <;> (try split) <;> omega

/-- **C124**, types: two arrays of different types (`long long` counts as `long`), items without size and
objects are refused. -/
theorem categories_of_other_types_refused (H : Nat → Nat → Nat) (HS : List Nat → Nat) (mode : Mode) (hint : Nat)
    (a b : CatArr) (par : Option (List Nat))
    (h : ¬SameTy a.ty b.ty ∨ a.width = 0 ∨ a.ty = 17) :
    isMemberCategorical H HS mode hint a b par = some .error := by
  unfold isMemberCategorical
  by_cases h1 : catTy a.ty ≠ catTy b.ty
  · rw [if_pos h1]
  · rw [if_neg h1]
    by_cases h2 : a.width = 0
    · rw [if_pos h2]
    · rw [if_neg h2, if_pos]
      have : a.ty = 17 := by
        rcases h with h | h | h
        · exact absurd (fun e => h ((catTy_same _ _).mp e)) h1
        · exact absurd h h2
        · exact h
      rw [this]; rfl

/-- **C124** is false for complex numbers and `long double`, all of 16 bytes or more: nothing is looked up, the
output keeps whatever was in its memory, and the flag says that everything was found. -/
theorem wide_numbers_are_not_looked_up (H : Nat → Nat → Nat) (HS : List Nat → Nat) (mode : Mode) (hint : Nat)
    (a b : CatArr) (par : Option (List Nat)) (hty : a.ty = b.ty) (h17 : a.ty < 17) (hw : 8 < a.width)
    (hsa : a.step = 1 ∨ a.rows ≤ 1) (hsb : b.step = 1 ∨ b.rows ≤ 1)
    (x y : List (List UInt8)) (hx : Elements a.cells a.rows a.step x) (hy : Elements b.cells b.rows b.step y) :
    isMemberCategorical H HS mode hint a b par = some (.cats false (List.replicate a.rows none)) := by
  have h17' : catTy a.ty < 17 := by unfold catTy; split <;> (try split) <;> omega
  rw [entry_numbers (by rw [hty]) (by omega) h17' (read_packed hsa hx) (read_packed hsb hy)]
  have e1 : catInts H mode hint a.width (x.map leWord) (y.map leWord) =
      some (.cats false (List.replicate a.rows none)) := by
    unfold catInts; rw [if_neg (by omega), if_neg (by omega), List.length_map, hx.1]
  have e2 : catFloats H mode hint a.width (x.map leWord) (y.map leWord) =
      some (.cats false (List.replicate a.rows none)) := by
    unfold catFloats; rw [if_neg (by omega), List.length_map, hx.1]
  rw [e1, e2]; simp

/-- One complex number looked up in another one. -/
example := wide_numbers_are_not_looked_up (fun _ x => x) List.sum .mask 0
  ⟨15, 16, [List.replicate 16 1], 1, 1⟩ ⟨15, 16, [List.replicate 16 2], 1, 1⟩ none rfl (by decide) (by decide)
  (.inl rfl) (.inl rfl) [List.replicate 16 1] [List.replicate 16 2]
  ⟨rfl, fun i hi => by have : i = 0 := by simp at hi; omega
                       subst this; exact ⟨_, rfl, rfl⟩⟩
  ⟨rfl, fun i hi => by have : i = 0 := by simp at hi; omega
                       subst this; exact ⟨_, rfl, rfl⟩⟩

/-- **C124** is false for arrays that are not packed: every second cell of `[5, 6, 7]` is `[5, 7]`, and 7 is
a category; the code reads `[5, 6]` and reports a miss. -/
theorem strides_are_ignored :
    Elements [[5, 0, 0, 0], [6, 0, 0, 0], [7, 0, 0, 0]] 2 2 [[5, 0, 0, 0], [7, 0, 0, (0 : UInt8)]] ∧
    isMemberCategorical (fun _ x => x) List.sum .prime 0
      ⟨5, 4, [[5, 0, 0, 0], [6, 0, 0, 0], [7, 0, 0, 0]], 2, 2⟩ ⟨5, 4, [[7, 0, 0, 0], [5, 0, 0, 0]], 2, 1⟩ none =
      some (.cats true [some 2, some 0]) := by
  refine ⟨⟨rfl, ?_⟩, by decide +kernel⟩
  intro i hi
  have : i = 0 ∨ i = 1 := by omega
  rcases this with rfl | rfl
  · exact ⟨_, rfl, rfl⟩
  · exact ⟨_, rfl, rfl⟩

/-- **C124**: an element with a step of 0 cells (a value broadcast to a shape) is read beyond its memory. -/
theorem broadcast_categories_out_of_bounds :
    Elements [[5, 0, 0, 0]] 2 0 [[5, 0, 0, 0], [5, 0, 0, (0 : UInt8)]] ∧
    isMemberCategorical (fun _ x => x) List.sum .prime 0
      ⟨5, 4, [[5, 0, 0, 0]], 2, 0⟩ ⟨5, 4, [[7, 0, 0, 0], [5, 0, 0, 0]], 2, 1⟩ none = none := by
  refine ⟨⟨rfl, ?_⟩, by decide +kernel⟩
  intro i hi
  have : i = 0 ∨ i = 1 := by omega
  rcases this with rfl | rfl
  · exact ⟨_, rfl, rfl⟩
  · exact ⟨_, rfl, rfl⟩

/-- **C124** is false for small types in prime mode: one byte with the value 53 is its own slot, but the
table for one category has 53 slots. -/
theorem small_types_leave_the_table_in_prime_mode :
    isMemberCategorical (fun _ x => x) List.sum .prime 0 ⟨2, 1, [[53]], 1, 1⟩ ⟨2, 1, [[53]], 1, 1⟩ none = none := by
  decide +kernel

/-- **C124** is false for the two zeros: `-0.0` equals the category `0.0` but is not found. -/
theorem signed_zeros_are_no_categories :
    SameFloat .f32 (leWord [0, 0, 0, 0]) (leWord [0, 0, 0, 0x80]) ∧
    isMemberCategorical (fun _ x => x) List.sum .prime 0
      ⟨11, 4, [[0, 0, 0, 0x80]], 1, 1⟩ ⟨11, 4, [[0, 0, 0, 0]], 1, 1⟩ none = some (.cats true [some 0]) := by
  refine ⟨by unfold SameFloat; decide +kernel, by decide +kernel⟩

/-- `[7, 5, 6, 7]` (as `long long`) among `[5, 7, 5]` (as `long`); one NaN and `1.5` among `[1.5]`; `"b"` of width
1 among `["a", "b"]` of width 2. -/
example :
    isMemberCategorical (fun _ x => x) List.sum .prime 0
      ⟨9, 8, [[7, 0, 0, 0, 0, 0, 0, 0], [5, 0, 0, 0, 0, 0, 0, 0], [6, 0, 0, 0, 0, 0, 0, 0], [7, 0, 0, 0, 0, 0, 0, 0]], 4, 1⟩
      ⟨7, 8, [[5, 0, 0, 0, 0, 0, 0, 0], [7, 0, 0, 0, 0, 0, 0, 0], [5, 0, 0, 0, 0, 0, 0, 0]], 3, 1⟩ none =
      some (.cats true [some 2, some 1, some 0, some 2]) ∧
    isMemberCategorical (fun _ x => x) List.sum .prime 0
      ⟨11, 4, [[0, 0, 0xC0, 0x7F], [0, 0, 0xC0, 0x3F]], 2, 1⟩ ⟨11, 4, [[0, 0, 0xC0, 0x3F]], 1, 1⟩ none =
      some (.cats true [some 0, some 1]) ∧
    isMemberCategorical (fun _ x => x) List.sum .prime 0
      ⟨18, 1, [[98]], 1, 1⟩ ⟨18, 2, [[97, 0], [98, 0]], 2, 1⟩ none = some (.cats false [some 2]) := by
  decide +kernel

theorem one_element (c : List UInt8) : Elements [c] 1 1 [c] :=
  ⟨rfl, fun i hi => by
    have : i = 0 := by omega
    subst this; exact ⟨c, rfl, rfl⟩⟩

example := integer_categories_partial (fun _ x => x * 31) List.sum .mask ⟨2, 1, [[200]], 1, 1⟩ ⟨2, 1, [[7]], 1, 1⟩ none
  rfl (by decide) rfl (.inr (.inr ⟨.inl rfl, rfl⟩)) (.inl rfl) (.inl rfl) (by decide) _ _ (one_element [200])
  (one_element [7]) (by decide) (by decide)

example := float_categories_partial (fun _ x => x * 31) List.sum .prime ⟨11, 4, [[0, 0, 0xC0, 0x3F]], 1, 1⟩
  ⟨11, 4, [[0, 0, 0, 0]], 1, 1⟩ none .f32 (.inl ⟨rfl, rfl, rfl⟩) ⟨rfl, rfl⟩ (.inl rfl) (.inl rfl) (by decide) _ _
  (one_element _) (one_element _) (by decide) (by decide) (2 ^ 31) (.inr rfl) (by decide) (by decide)

example := text_categories_partial (fun _ x => x * 31) List.sum .prime ⟨21, 8, [[1, 0, 2, 0, 0, 0, 0, 0]], 1, 1⟩
  ⟨21, 8, [[1, 0, 3, 0, 0, 0, 0, 0]], 1, 1⟩ rfl (by decide) (by decide) (.inl rfl) (.inl rfl) (by decide) _ _
  (one_element _) (one_element _) (.inl ⟨8, by decide⟩) (workers := 0) (nt := true) (par := none) (.direct (.inr rfl))

example := categories_of_other_types_refused (fun _ x => x) List.sum .prime 0 ⟨9, 8, [], 0, 1⟩ ⟨10, 8, [], 0, 1⟩ none
  (.inl (by unfold SameTy; decide))

end Riptide.Hash
