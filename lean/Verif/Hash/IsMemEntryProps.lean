import Verif.Hash.IsMemEntryLemmas
/-! # The membership call (C132) -/
namespace Riptide.Hash
open Spec Riptide.Work Riptide.Str Riptide.Str.Spec

theorem norm_other {ty : Nat} (h : ty ≠ 7 ∧ ty ≠ 8) : normTy ty = ty := by
  unfold normTy; rw [if_neg h.1, if_neg h.2]

/-- Which types are looked up as whole numbers. -/
theorem alias_number {ty w : Nat} (hk : ty ≤ 10 ∨ ty = 14 ∨ 18 ≤ ty) (hw : w = 1 ∨ w = 2 ∨ w = 4 ∨ w = 8) :
    aliasTy (normTy ty) w w < 18 ∧ aliasTy (normTy ty) w w ≠ 11 ∧ aliasTy (normTy ty) w w ≠ 12 := by
  have hn : normTy ty ≤ 10 ∨ normTy ty = 14 ∨ 18 ≤ normTy ty := by
    unfold normTy; split <;> (try split) <;> omega
  generalize normTy ty = n at *
  unfold aliasTy
  rcases hw with rfl | rfl | rfl | rfl <;> by_cases h : 18 ≤ n <;> simp [h] <;> omega

theorem typed_numbers {H : Nat → Nat → Nat} {HS : List Nat → Nat} {mode hint : Int} {a b : CatArr} {x y : List (List UInt8)} {par : Option (List Nat)}
    (hk : a.ty ≤ 10 ∨ a.ty = 14 ∨ 18 ≤ a.ty) (hab : b.width = a.width) (hw : a.width = 1 ∨ a.width = 2 ∨ a.width = 4 ∨ a.width = 8) :
    memberTyped H HS mode hint a b x y par = memberInts H mode hint a.width (x.map leWord) (y.map leWord) par := by
  obtain ⟨h1, h2, h3⟩ := alias_number hk hw
  unfold memberTyped
  rw [hab, if_neg (by omega), if_neg (by omega)]

theorem memberInts_exact (H : Nat → Nat → Nat) {mode : Int} {hint width : Nat} (hw : width = 1 ∨ width = 2 ∨ width = 4 ∨ width = 8) (a b U : List Nat)
    (hs : (width = 1 ∨ width = 2) → (∀ x ∈ a, x < 65536) ∧ ∀ x ∈ b, x < 65536) (hU : ∀ x ∈ b, x ∈ U)
    (hroom : width = 1 ∨ width = 2 ∨ RoomFor mode 2 (expected hint b.length) U.length) (he : expected hint b.length ≤ 2 ^ 59) (hn : b.length ≤ 2 ^ 63)
    {workers : Nat} {nt : Bool} {par : Option (List Nat)} (hc : ChunkSched workers a.length nt par) :
    ∃ out : List (Bool × Int), memberInts H mode (hint : Int) width a b par = some (.arrays 0 (indexType b.length) (out.map some)) ∧
      Answers (fun y x => y = x) a b (indexType b.length).inv out := by
  unfold memberInts
  by_cases h12 : width = 1 ∨ width = 2
  · rw [if_pos h12]
    have hsz : allocSize .mask (if width = 1 then 128 else 32768) false = some 65536 := by
      split
      · exact small_size.1
      · exact small_size.2
    rw [hsz, Option.bind_some]
    obtain ⟨out, e, h1, h2⟩ := ismember_small_first_match 65536 a b (hs h12).1 (hs h12).2 hn hc
    exact ⟨out, by rw [e]; rfl, h1, h2⟩
  · rw [if_neg h12, if_pos (by omega), memberHint_nat]
    obtain ⟨s, es, hd⟩ := member_size (isFloat := false) rfl he ((hroom.resolve_left fun h => h12 (.inl h)).resolve_left fun h => h12 (.inr h))
    rw [es, Option.bind_some]
    have hcov : distinct (fun x y : Nat => decide (x = y)) (b.filter fun _ => true) ≤ U.length :=
      distinct_cover fun x hx => ⟨hU x (by simpa using hx), by simp⟩
    obtain ⟨out, e, h1, h2⟩ := memberRun_exact (P := fun _ => True) 0 2 (indexType b.length) (fun _ => true) (slotOf (memberMode mode) (H width) s)
      (fun x y => decide (x = y)) s (laws_decEq _ s fun k => slotOf_lt _ _ (by omega) k) a b (by simp) (by simp)
      (Nat.lt_of_le_of_lt hcov hd) (fun i hi => (index_fits hn hi).1) hc
    refine ⟨out, e, h1, fun i x r hx hr => ?_⟩
    simpa using h2 i x r hx hr

/-- Bytes as numbers. -/
theorem small_words {w : Nat} {l : List (List UInt8)} (hl : ∀ c ∈ l, c.length = w) (h : w = 1 ∨ w = 2) : ∀ v ∈ l.map leWord, v < 65536 := by
  intro v hv
  obtain ⟨c, hc, rfl⟩ := List.mem_map.mp hv
  have h1 := leWord_lt_pow c
  rw [hl c hc] at h1
  rcases h with h | h <;> rw [h] at h1 <;> omega

/-- **C132**, whole numbers: bool, characters, integers, `complex64`, and text, dates, intervals, half floats and records of 1, 2, 4 or 8 bytes in both arrays.  Every
element gets whether the second array has the same bytes, and the first place where it has; the positions are in the type for the second array, for every hash function, hash mode and schedule — *for
packed arrays with room in the table*.  What is missing: `member_strides_are_ignored`, `member_table_too_small_partial`. -/
theorem member_numbers_partial (H : Nat → Nat → Nat) (HS : List Nat → Nat) {nums : List Int} {mode : Int} {hint : Nat} (hp : Passed nums mode hint) (a b : CatArr)
    (hty : SameTy a.ty b.ty) (hk : a.ty ≤ 10 ∨ a.ty = 14 ∨ 18 ≤ a.ty) (hab : b.width = a.width)
    (hw : a.width = 1 ∨ a.width = 2 ∨ a.width = 4 ∨ a.width = 8)
    (hsa : a.step = 1 ∨ a.rows ≤ 1) (hsb : b.step = 1 ∨ b.rows ≤ 1) (hn : b.rows ≤ 2 ^ 59)
    (x y : List (List UInt8)) (hx : Elements a.cells a.rows a.step x) (hy : Elements b.cells b.rows b.step y)
    (hxw : ∀ c ∈ x, c.length = a.width) (hyw : ∀ c ∈ y, c.length = a.width)
    (U : List (List UInt8)) (hU : ∀ c ∈ y, c ∈ U)
    (hroom : a.width = 1 ∨ a.width = 2 ∨ RoomFor mode 2 (expected hint b.rows) U.length)
    {workers : Nat} {nt : Bool} {par : Option (List Nat)} (hc : ChunkSched workers a.rows nt par) :
    ∃ (t : IT) (out : List (Bool × Int)), isMemberCall H HS [a, b] nums par = some (.arrays 0 t (out.map some)) ∧ IndexFor b.rows t ∧
      Answers (fun v u => v = u) x y t.inv out := by
  have hyl : (y.map leWord).length = b.rows := by rw [List.length_map, hy.1]
  have hexp : expected hint b.rows ≤ 2 ^ 59 := by unfold expected; have := hp.1.2.2; split <;> omega
  obtain ⟨out, e, ho⟩ := memberInts_exact H (mode := mode) (hint := hint) hw (x.map leWord) (y.map leWord) (U.map leWord)
    (fun h => ⟨small_words hxw h, small_words hyw h⟩)
    (fun v hv => by obtain ⟨c, hc, rfl⟩ := List.mem_map.mp hv; exact List.mem_map_of_mem (hU c hc))
    (by rw [hyl, List.length_map]; exact hroom) (by rw [hyl]; exact hexp) (by rw [hyl]; omega)
    (par := par) (workers := workers) (nt := nt) (by rw [List.length_map, hx.1]; exact hc)
  rw [hyl] at e ho
  refine ⟨_, out, ?_, indexFor b.rows, answers_map leWord (fun u hu v hv => ?_) ho⟩
  · rw [call_passed hp, checked_reads hty (by omega) (by omega) (read_packed hsa hx) (read_packed hsb hy), typed_numbers hk hab hw, e]
  · exact ⟨fun h => leWord_inj (by rw [hxw u hu, hyw v hv]) h, fun h => by rw [h]⟩

theorem memberFloats_exact (H : Nat → Nat → Nat) {mode : Int} {hint width : Nat} (a b U : List Nat) (f : FT) (hf : f = if width = 4 then FT.f32 else FT.f64)
    (ha : ∀ x ∈ a, f.Ok x) (hb : ∀ x ∈ b, f.Ok x) (z : Nat) (hz : IsZero f z) (hza : z ∉ a) (hzb : z ∉ b)
    (hU : ∀ x ∈ b, f.isNan x = false → x ∈ U) (hroom : RoomFor mode 8 (expected hint b.length) U.length) (he : expected hint b.length ≤ 2 ^ 59)
    (hn : b.length ≤ 2 ^ 63) {workers : Nat} {nt : Bool} {par : Option (List Nat)} (hc : ChunkSched workers a.length nt par) :
    ∃ out : List (Bool × Int), memberFloats H mode (hint : Int) width a b par = some (.arrays 0 (indexType b.length) (out.map some)) ∧
      Answers (fun y x => SameFloat f y x) a b (indexType b.length).inv out := by
  have hself : ∀ x, f.eq x x = true → f.isNan x = false := by
    intro x h; unfold FT.eq at h; simp at h; exact h
  unfold memberFloats
  rw [memberHint_nat, ← hf]
  obtain ⟨s, es, hd⟩ := member_size (isFloat := true) rfl he hroom
  rw [es, Option.bind_some]
  have hcov : distinct f.eq (b.filter fun x => f.eq x x) ≤ U.length :=
    distinct_cover fun x hx => by
      obtain ⟨h1, h2⟩ := List.mem_filter.mp hx
      exact ⟨hU x h1 (hself x h2), h2⟩
  obtain ⟨out, e, h1, h2⟩ := memberRun_exact 0 2 (indexType b.length) (fun x => f.eq x x) (slotOf (memberMode mode) (H (100 + width)) s) f.eq s
    (laws_float f _ s z hz fun k => slotOf_lt _ _ (by omega) k) a b (fun x hx hi => ⟨ha x hx, hself x hi, fun e => hza (e ▸ hx)⟩)
    (fun x hx hi => ⟨hb x hx, hself x hi, fun e => hzb (e ▸ hx)⟩) (Nat.lt_of_le_of_lt hcov hd) (fun i hi => (index_fits hn hi).1) hc
  refine ⟨out, e, h1, fun i x r hx hr => ?_⟩
  have hxa := List.mem_of_getElem? hx
  have hiff : ∀ y ∈ b, (f.eq x x = true ∧ f.eq y y = true ∧ f.eq y x = true) ↔ SameFloat f y x := by
    intro y hy
    rw [← eq_iff_same f (hb y hy) (ha x hxa)]
    constructor
    · exact fun h => h.2.2
    · intro h
      unfold FT.eq at h ⊢
      simp only [Bool.and_eq_true, Bool.not_eq_true', decide_eq_true_eq] at h ⊢
      exact ⟨⟨⟨h.1.2, h.1.2⟩, trivial⟩, ⟨⟨h.1.1, h.1.1⟩, trivial⟩, h⟩
  rcases h2 i x r hx hr with ⟨g1, j, g2, g3⟩ | ⟨g1, g2, g3⟩
  · exact .inl ⟨g1, j, g2, firstAt_congr hiff g3⟩
  · exact .inr ⟨g1, g2, fun y hy h => g3 y hy ((hiff y hy).mpr h)⟩

theorem typed_floats {H : Nat → Nat → Nat} {HS : List Nat → Nat} {mode hint : Int} {a b : CatArr} {x y : List (List UInt8)} {par : Option (List Nat)}
    (hk : a.ty = 11 ∨ a.ty = 12) :
    memberTyped H HS mode hint a b x y par = memberFloats H mode hint a.width (x.map leWord) (y.map leWord) par := by
  have : aliasTy (normTy a.ty) a.width b.width = a.ty := by
    rw [norm_other (by omega)]
    unfold aliasTy
    rw [if_neg (by omega)]
  unfold memberTyped
  rw [this, if_neg (by omega), if_pos hk]

/-- **C132**, floats: numeric equality, and NaN is in no array — *for packed arrays with zeros of one sign and room in the table*.  What is missing:
`member_strides_are_ignored`, `member_signed_zeros`, `member_table_too_small_partial`. -/
theorem member_floats_partial (H : Nat → Nat → Nat) (HS : List Nat → Nat) {nums : List Int} {mode : Int} {hint : Nat} (hp : Passed nums mode hint) (a b : CatArr) (f : FT)
    (hta : (a.ty = 11 ∧ a.width = 4 ∧ f = FT.f32) ∨ (a.ty = 12 ∧ a.width = 8 ∧ f = FT.f64)) (htb : b.ty = a.ty)
    (hsa : a.step = 1 ∨ a.rows ≤ 1) (hsb : b.step = 1 ∨ b.rows ≤ 1) (hn : b.rows ≤ 2 ^ 59)
    (x y : List (List UInt8)) (hx : Elements a.cells a.rows a.step x) (hy : Elements b.cells b.rows b.step y)
    (hxw : ∀ c ∈ x, c.length = a.width) (hyw : ∀ c ∈ y, c.length = a.width)
    (z : Nat) (hz : IsZero f z) (hzx : ∀ c ∈ x, leWord c ≠ z) (hzy : ∀ c ∈ y, leWord c ≠ z)
    (U : List (List UInt8)) (hU : ∀ c ∈ y, f.isNan (leWord c) = false → c ∈ U)
    (hroom : RoomFor mode 8 (expected hint b.rows) U.length)
    {workers : Nat} {nt : Bool} {par : Option (List Nat)} (hc : ChunkSched workers a.rows nt par) :
    ∃ (t : IT) (out : List (Bool × Int)), isMemberCall H HS [a, b] nums par = some (.arrays 0 t (out.map some)) ∧ IndexFor b.rows t ∧
      Answers (fun v u => SameFloat f (leWord v) (leWord u)) x y t.inv out := by
  have ok : ∀ {l : List (List UInt8)}, (∀ c ∈ l, c.length = a.width) → ∀ v ∈ l.map leWord, f.Ok v := by
    intro l hl v hv
    obtain ⟨c, hc, rfl⟩ := List.mem_map.mp hv
    have h1 := leWord_lt_pow c
    rw [hl c hc] at h1
    unfold FT.Ok
    rcases hta with ⟨_, h, rfl⟩ | ⟨_, h, rfl⟩
    · rw [h] at h1; simp only [FT.f32]; simp at *; omega
    · rw [h] at h1; simp only [FT.f64]; simp at *; omega
  have hne : ∀ {l : List (List UInt8)}, (∀ c ∈ l, leWord c ≠ z) → z ∉ l.map leWord := by
    intro l hl hm
    obtain ⟨c, hc, e⟩ := List.mem_map.mp hm
    exact hl c hc e
  have hf : f = if a.width = 4 then FT.f32 else FT.f64 := by
    rcases hta with ⟨_, h, rfl⟩ | ⟨_, h, rfl⟩ <;> simp [h]
  have hyl : (y.map leWord).length = b.rows := by rw [List.length_map, hy.1]
  have hexp : expected hint b.rows ≤ 2 ^ 59 := by unfold expected; have := hp.1.2.2; split <;> omega
  obtain ⟨out, e, ho⟩ := memberFloats_exact H (mode := mode) (hint := hint) (width := a.width) (x.map leWord) (y.map leWord) (U.map leWord) f hf
    (ok hxw) (ok hyw) z hz (hne hzx) (hne hzy)
    (fun v hv hnan => by obtain ⟨c, hc, rfl⟩ := List.mem_map.mp hv; exact List.mem_map_of_mem (hU c hc hnan))
    (by rw [hyl, List.length_map]; exact hroom) (by rw [hyl]; exact hexp) (by rw [hyl]; omega)
    (par := par) (workers := workers) (nt := nt) (by rw [List.length_map, hx.1]; exact hc)
  rw [hyl] at e ho
  refine ⟨_, out, ?_, indexFor b.rows, answers_map leWord (fun u hu v hv => Iff.rfl) ho⟩
  rw [call_passed hp, checked_reads (.inl htb.symm) (by omega) (by omega) (read_packed hsa hx) (read_packed hsb hy), typed_floats (by omega), e]

/-- Text is not looked up as numbers unless the widths are the same and one of four. -/
theorem typed_text {H : Nat → Nat → Nat} {HS : List Nat → Nat} {mode hint : Int} {a b : CatArr} {x y : List (List UInt8)} {par : Option (List Nat)}
    (h18 : 18 ≤ a.ty) (hw : a.width ≠ b.width ∨ (a.width ≠ 1 ∧ a.width ≠ 2 ∧ a.width ≠ 4 ∧ a.width ≠ 8)) :
    memberTyped H HS mode hint a b x y par = memberText HS mode hint (x.map (catChars a.ty)) (y.map (catChars a.ty)) := by
  have : aliasTy (normTy a.ty) a.width b.width = a.ty := by
    rw [norm_other (by omega)]
    unfold aliasTy
    split
    · rw [if_neg (by omega), if_neg (by omega), if_neg (by omega), if_neg (by omega)]
    · rfl
  unfold memberTyped
  rw [this, if_pos h18]

theorem memberText_exact (HS : List Nat → Nat) {mode : Int} {hint : Nat} (a b U : List (List Nat)) (P : List Nat → Prop)
    (hP : ∀ a b, P a → P b → a.length = b.length ∨ (NoInnerNul a ∧ NoInnerNul b)) (ha : ∀ x ∈ a, P x) (hb : ∀ x ∈ b, P x)
    (hU : ∀ x ∈ b, x ∈ U) (hroom : RoomFor mode 2 (expected hint b.length) U.length) (he : expected hint b.length ≤ 2 ^ 59)
    (hn : max a.length b.length ≤ 2 ^ 63) :
    ∃ out : List (Bool × Int), memberText HS mode (hint : Int) a b = some (.arrays 1 (indexType (max a.length b.length)) (out.map some)) ∧
      Answers (fun y x => content y = content x) a b (indexType (max a.length b.length)).inv out := by
  unfold memberText
  rw [memberHint_nat]
  obtain ⟨s, es, hd⟩ := member_size (isFloat := false) rfl he hroom
  rw [es, Option.bind_some]
  have hcov : distinct strMatch (b.filter fun _ => true) ≤ U.length :=
    distinct_cover fun x hx => ⟨hU x (by simpa using hx), (strMatch_iff (.inl rfl)).mpr rfl⟩
  obtain ⟨out, e, h1, h2⟩ := memberRun_exact 1 3 (indexType (max a.length b.length)) (fun _ => true) (strHash HS s) strMatch s
    (laws_str HS s (by omega) P hP) a b (fun x hx _ => ha x hx) (fun x hx _ => hb x hx) (Nat.lt_of_le_of_lt hcov hd)
    (fun i hi => index_fits_max hn hi) (par := none) (workers := 0) (nt := true) (.direct (.inr rfl))
  refine ⟨out, e, h1, fun i x r hx hr => ?_⟩
  have hxa := List.mem_of_getElem? hx
  have hiff : ∀ y ∈ b, (True ∧ True ∧ strMatch y x = true) ↔ content y = content x := fun y hy => by
    rw [strMatch_iff (hP y x (hb y hy) (ha x hxa))]; simp
  rcases h2 i x r hx hr with ⟨g1, j, g2, g3⟩ | ⟨g1, g2, g3⟩
  · exact .inl ⟨g1, j, g2, firstAt_congr (fun y hy => by simpa using hiff y hy) g3⟩
  · exact .inr ⟨g1, g2, fun y hy h => g3 y hy (by simpa using (hiff y hy).mpr h)⟩

/-- **C132**, text: equality of the contents (without the NULs at the end).  The positions are in the type for the *longer* array, and the index array that was made first is lost in every such
call — *for packed arrays of equal widths or without a NUL inside, with room in the table*.  What is missing: `member_strides_are_ignored`, `inner_nul_matches_prefix` (C12),
`member_text_table_too_small_partial`. -/
theorem member_text_partial (H : Nat → Nat → Nat) (HS : List Nat → Nat) {nums : List Int} {mode : Int} {hint : Nat} (hp : Passed nums mode hint) (a b : CatArr)
    (hty : a.ty = b.ty) (h18 : 18 ≤ a.ty) (hw0 : 0 < a.width)
    (hw : a.width ≠ b.width ∨ (a.width ≠ 1 ∧ a.width ≠ 2 ∧ a.width ≠ 4 ∧ a.width ≠ 8))
    (hsa : a.step = 1 ∨ a.rows ≤ 1) (hsb : b.step = 1 ∨ b.rows ≤ 1) (hn : a.rows ≤ 2 ^ 59 ∧ b.rows ≤ 2 ^ 59)
    (x y : List (List UInt8)) (hx : Elements a.cells a.rows a.step x) (hy : Elements b.cells b.rows b.step y)
    (hc : (∃ w, ∀ c ∈ x ++ y, (charsOf (decide (a.ty = 19)) c).length = w) ∨ ∀ c ∈ x ++ y, NoInnerNul (charsOf (decide (a.ty = 19)) c))
    (U : List (List UInt8)) (hU : ∀ c ∈ y, c ∈ U) (hroom : RoomFor mode 2 (expected hint b.rows) U.length) (par : Option (List Nat)) :
    ∃ (t : IT) (out : List (Bool × Int)), isMemberCall H HS [a, b] nums par = some (.arrays 1 t (out.map some)) ∧ IndexFor (max a.rows b.rows) t ∧
      Answers (fun v u => content (charsOf (decide (a.ty = 19)) v) = content (charsOf (decide (a.ty = 19)) u)) x y t.inv out := by
  rw [← catChars_eq] at hc ⊢
  have hxl : (x.map (catChars a.ty)).length = a.rows := by rw [List.length_map, hx.1]
  have hyl : (y.map (catChars a.ty)).length = b.rows := by rw [List.length_map, hy.1]
  have hexp : expected hint b.rows ≤ 2 ^ 59 := by unfold expected; have := hp.1.2.2; split <;> omega
  have mem : ∀ {Q : List Nat → Prop} {l : List (List UInt8)}, (∀ c ∈ l, Q (catChars a.ty c)) →
      ∀ v ∈ l.map (catChars a.ty), Q v := by
    intro Q l hl v hv
    obtain ⟨c, hc, rfl⟩ := List.mem_map.mp hv
    exact hl c hc
  have key : ∃ out : List (Bool × Int), memberText HS mode (hint : Int) (x.map (catChars a.ty)) (y.map (catChars a.ty)) =
      some (.arrays 1 (indexType (max a.rows b.rows)) (out.map some)) ∧
      Answers (fun v u => content v = content u) (x.map (catChars a.ty)) (y.map (catChars a.ty)) (indexType (max a.rows b.rows)).inv out := by
    have run := fun P hP ha hb => memberText_exact HS (mode := mode) (hint := hint) (x.map (catChars a.ty)) (y.map (catChars a.ty)) (U.map (catChars a.ty)) P hP ha hb
      (fun v hv => by obtain ⟨c, hc, rfl⟩ := List.mem_map.mp hv; exact List.mem_map_of_mem (hU c hc))
      (by rw [hyl, List.length_map]; exact hroom) (by rw [hyl]; exact hexp) (by rw [hxl, hyl]; omega)
    rw [hxl, hyl] at run
    rcases hc with ⟨w, hc⟩ | hc
    · exact run (fun v => v.length = w) (fun _ _ h1 h2 => .inl (h1.trans h2.symm))
        (mem fun c h => hc c (List.mem_append_left _ h)) (mem fun c h => hc c (List.mem_append_right _ h))
    · exact run NoInnerNul (fun _ _ h1 h2 => .inr ⟨h1, h2⟩)
        (mem fun c h => hc c (List.mem_append_left _ h)) (mem fun c h => hc c (List.mem_append_right _ h))
  obtain ⟨out, e, ho⟩ := key
  refine ⟨_, out, ?_, indexFor _, answers_map (catChars a.ty) (fun u hu v hv => Iff.rfl) ho⟩
  rw [call_passed hp, checked_reads (.inl hty) hw0 (by omega) (read_packed hsa hx) (read_packed hsb hy), typed_text h18 hw, e]

/-- **C132**, refusals: arrays of different types, items without size and objects; nothing is lost. -/
theorem member_refuses (H : Nat → Nat → Nat) (HS : List Nat → Nat) {nums : List Int} {mode : Int} {hint : Nat} (hp : Passed nums mode hint) (a b : CatArr)
    (par : Option (List Nat)) (h : ¬SameTy a.ty b.ty ∨ a.width = 0 ∨ a.ty = 17) : isMemberCall H HS [a, b] nums par = some (.error 0) := by
  rw [call_passed hp]
  unfold memberChecked
  by_cases h1 : normTy a.ty ≠ normTy b.ty
  · rw [if_pos h1]
  · rw [if_neg h1]
    by_cases h2 : a.width = 0
    · rw [if_pos h2]
    · rw [if_neg h2]
      have : a.ty = 17 := by
        rcases h with h | h | h
        · exact absurd ((normTy_same _ _).mp (by simpa using h1)) h
        · exact absurd h h2
        · exact h
      rw [if_pos (by rw [this]; rfl)]

/-- **C132**, arguments: with less than two nothing is returned and no exception is set; with more than four, or numbers that do not fit, an exception is. -/
theorem member_arguments (H : Nat → Nat → Nat) (HS : List Nat → Nat) (par : Option (List Nat)) :
    (∀ arrs nums, arrs.length + nums.length ≤ 1 → isMemberCall H HS arrs nums par = some .nothing) ∧
    (∀ arrs nums, 2 ≤ arrs.length + nums.length → arrs.length ≠ 2 ∨ 2 < nums.length → isMemberCall H HS arrs nums par = some (.error 0)) ∧
    ∀ a b mode rest, mode < -2147483648 ∨ 2147483648 ≤ mode → isMemberCall H HS [a, b] (mode :: rest) par = some (.error 0) := by
  refine ⟨fun arrs nums h => by unfold isMemberCall; rw [if_pos h], fun arrs nums h1 h2 => ?_, fun a b mode rest h => ?_⟩
  · unfold isMemberCall
    rw [if_neg (by omega)]
    match arrs, nums with
    | [], _ => rfl
    | [_], _ => rfl
    | [_, _], [] => simp at h2
    | [_, _], [_] => simp at h2
    | [_, _], [_, _] => simp at h2
    | [_, _], _ :: _ :: _ :: _ => rfl
    | _ :: _ :: _ :: _, _ => rfl
  · have hf : fitsArg .i32 mode = false := by
      unfold fitsArg
      rw [decide_eq_false_iff_not, show IT.i32.bits - 1 = 31 from rfl]
      omega
    unfold isMemberCall
    rw [if_neg (by simp only [List.length_cons]; omega)]
    match rest with
    | [] => simp [hf]
    | [_] => simp [hf]
    | _ :: _ :: _ => rfl

/-- **C132** fails for wide numbers: `long double` (13), `complex128` (15) and its wide form (16) are accepted, and both arrays are returned as they were allocated. -/
theorem wide_numbers_are_never_looked_up (H : Nat → Nat → Nat) (HS : List Nat → Nat) {nums : List Int} {mode : Int} {hint : Nat} (hp : Passed nums mode hint)
    (a b : CatArr) (hty : a.ty = b.ty) (hk : a.ty = 13 ∨ a.ty = 15 ∨ a.ty = 16) (hw : a.width = 16 ∨ a.width = 32)
    (hra : a.rows ≤ a.cells.length) (hrb : b.rows ≤ b.cells.length) (par : Option (List Nat)) :
    ∃ t, isMemberCall H HS [a, b] nums par = some (.arrays 0 t (List.replicate a.rows none)) ∧ IndexFor b.rows t := by
  have hx : a.read = some (a.cells.take a.rows) := by unfold CatArr.read; rw [if_pos hra]
  have hy : b.read = some (b.cells.take b.rows) := by unfold CatArr.read; rw [if_pos hrb]
  have ha : aliasTy (normTy a.ty) a.width b.width = a.ty := by
    rw [norm_other (by omega)]; unfold aliasTy; rw [if_neg (by omega)]
  refine ⟨_, ?_, indexFor b.rows⟩
  rw [call_passed hp, checked_reads (.inl hty) (by omega) (by omega) hx hy]
  unfold memberTyped
  rw [ha, if_neg (by omega), if_neg (by omega)]
  unfold memberInts
  rw [if_neg (by omega), if_neg (by omega)]
  simp [Nat.min_eq_left hra, Nat.min_eq_left hrb]

/-- **C132**, the price of a small hint: with more different items than slots the call raises, and the two arrays it made are lost — *in mask mode and the modes that are neither*. -/
theorem member_table_too_small_partial (H : Nat → Nat → Nat) (HS : List Nat → Nat) {nums : List Int} {mode : Int} {hint : Nat} (hp : Passed nums mode hint) (a b : CatArr)
    (hty : SameTy a.ty b.ty) (hk : a.ty ≤ 10 ∨ a.ty = 14 ∨ 18 ≤ a.ty) (hab : b.width = a.width) (hw : a.width = 4 ∨ a.width = 8)
    (hn : b.rows ≤ 2 ^ 59) (hra : a.rows ≤ a.cells.length) (hrb : b.rows ≤ b.cells.length) (U : List (List UInt8)) (hU : U.Nodup)
    (hUw : ∀ c ∈ U, c.length = a.width ∧ c ∈ b.cells.take b.rows) (hmany : TooMany mode (expected hint b.rows) U.length) (par : Option (List Nat)) :
    isMemberCall H HS [a, b] nums par = some (.error 2) := by
  have hx : a.read = some (a.cells.take a.rows) := by unfold CatArr.read; rw [if_pos hra]
  have hy : b.read = some (b.cells.take b.rows) := by unfold CatArr.read; rw [if_pos hrb]
  have hexp : expected hint b.rows ≤ 2 ^ 59 := by unfold expected; have := hp.1.2.2; split <;> omega
  have hbl : ((b.cells.take b.rows).map leWord).length = b.rows := by simp [Nat.min_eq_left hrb]
  rw [call_passed hp, checked_reads hty (by omega) (by omega) hx hy, typed_numbers hk hab (by omega)]
  unfold memberInts
  rw [if_neg (by omega), if_pos hw, hbl, memberHint_nat]
  obtain ⟨s, es, h0, hd⟩ := member_too_many hexp hmany
  rw [es, Option.bind_some]
  unfold memberRun
  rw [insertAll_full (fun k => slotOf_lt _ _ h0 k) _ _ _ (U.map leWord) (by simp) ?_ ?_ (by rw [List.length_map]; exact hd)]
  · rfl
  · rw [List.nodup_iff_pairwise_ne] at hU ⊢
    rw [List.pairwise_map]
    exact hU.imp_of_mem fun hc hc' hne e => hne (leWord_inj (by rw [(hUw _ hc).1, (hUw _ hc').1]) e)
  · intro v hv
    obtain ⟨c, hc, rfl⟩ := List.mem_map.mp hv
    exact List.mem_map_of_mem (hUw c hc).2

/-- **C132**, the same for text: here three arrays are lost. -/
theorem member_text_table_too_small_partial (H : Nat → Nat → Nat) (HS : List Nat → Nat) {nums : List Int} {mode : Int} {hint : Nat} (hp : Passed nums mode hint) (a b : CatArr)
    (hty : a.ty = b.ty) (h18 : 18 ≤ a.ty) (hw0 : 0 < a.width)
    (hw : a.width ≠ b.width ∨ (a.width ≠ 1 ∧ a.width ≠ 2 ∧ a.width ≠ 4 ∧ a.width ≠ 8))
    (hn : b.rows ≤ 2 ^ 59) (hra : a.rows ≤ a.cells.length) (hrb : b.rows ≤ b.cells.length)
    (w : Nat) (hyw : ∀ c ∈ b.cells.take b.rows, (charsOf (decide (a.ty = 19)) c).length = w)
    (U : List (List Nat)) (hU : U.Nodup) (hUb : ∀ v ∈ U, ∃ c ∈ b.cells.take b.rows, charsOf (decide (a.ty = 19)) c = v)
    (hmany : TooMany mode (expected hint b.rows) U.length) (par : Option (List Nat)) :
    isMemberCall H HS [a, b] nums par = some (.error 3) := by
  rw [← catChars_eq] at hyw hUb
  have hx : a.read = some (a.cells.take a.rows) := by unfold CatArr.read; rw [if_pos hra]
  have hy : b.read = some (b.cells.take b.rows) := by unfold CatArr.read; rw [if_pos hrb]
  have hexp : expected hint b.rows ≤ 2 ^ 59 := by unfold expected; have := hp.1.2.2; split <;> omega
  have hbl : ((b.cells.take b.rows).map (catChars a.ty)).length = b.rows := by simp [Nat.min_eq_left hrb]
  rw [call_passed hp, checked_reads (.inl hty) hw0 (by omega) hx hy, typed_text h18 hw]
  unfold memberText
  rw [hbl, memberHint_nat]
  obtain ⟨s, es, h0, hd⟩ := member_too_many hexp hmany
  rw [es, Option.bind_some]
  unfold memberRun
  rw [insertAll_full (fun k => by unfold strHash; exact Nat.lt_of_le_of_lt Nat.and_le_right (by omega)) _ _ _ U ?_ hU ?_ hd]
  · rfl
  · intro u hu v hv h
    obtain ⟨c, hc, rfl⟩ := List.mem_map.mp hu
    obtain ⟨d, hd, rfl⟩ := List.mem_map.mp hv
    unfold strMatch at h
    rw [if_pos (by rw [hyw c hc, hyw d hd])] at h
    simpa using h
  · intro v hv
    obtain ⟨c, hc, rfl⟩ := hUb v hv
    exact List.mem_map_of_mem hc

/-! ## The hypotheses can be met -/

theorem passed_default : Passed [] 2 0 := ⟨by decide, .inl ⟨rfl, rfl, rfl⟩⟩
theorem passed_both : Passed [0, 2] 0 2 := ⟨by decide, .inr (.inr rfl)⟩

theorem packed_elements {C : Type} (l : List C) : Elements l l.length 1 l :=
  ⟨rfl, fun i hi => ⟨l[i], by simp [hi], by simp [hi]⟩⟩

example (H : Nat → Nat → Nat) (HS : List Nat → Nat) (l m : List (List UInt8)) (hl : ∀ c ∈ l, c.length = 8) (hm : ∀ c ∈ m, c.length = 8) (hn : m.length < 65536) :=
  member_numbers_partial H HS passed_default ⟨21, 8, l, l.length, 1⟩ ⟨21, 8, m, m.length, 1⟩ (.inl rfl) (.inr (.inr (by simp))) rfl (by simp) (.inl rfl) (.inl rfl)
    (by simp; omega) l m (packed_elements l) (packed_elements m) hl hm m (fun _ h => h) (.inr (.inr (.inl ⟨rfl, .inl hn⟩))) (workers := 0) (nt := true) (.direct (.inr rfl))

example (H : Nat → Nat → Nat) (HS : List Nat → Nat) :=
  member_floats_partial H HS passed_default ⟨11, 4, [[0, 0, 128, 63], [0, 0, 192, 127]], 2, 1⟩ ⟨11, 4, [[0, 0, 192, 127]], 1, 1⟩ FT.f32 (.inl ⟨rfl, rfl, rfl⟩) rfl (.inl rfl)
    (.inl rfl) (by decide) [[0, 0, 128, 63], [0, 0, 192, 127]] [[0, 0, 192, 127]] (packed_elements _) (packed_elements _) (by decide) (by decide) 0 (.inl rfl) (by decide)
    (by decide) [] (by decide) (.inl ⟨rfl, .inl (by decide)⟩) (workers := 0) (nt := true) (.direct (.inr rfl))

example (H : Nat → Nat → Nat) (HS : List Nat → Nat) :=
  member_text_partial H HS passed_both ⟨18, 3, [[97, 98, 99]], 1, 1⟩ ⟨18, 3, [[97, 98, 0]], 1, 1⟩ rfl (by decide) (by decide) (.inr (by decide)) (.inl rfl)
    (.inl rfl) (by decide) [[97, 98, 99]] [[97, 98, 0]] (packed_elements _) (packed_elements _) (.inl ⟨3, by decide⟩) [[97, 98, 0]] (by decide)
    (.inr (.inr ⟨by decide, by decide, by decide⟩)) none

example (H : Nat → Nat → Nat) (HS : List Nat → Nat) := member_refuses H HS passed_both ⟨5, 4, [], 0, 1⟩ ⟨6, 4, [], 0, 1⟩ none (.inl (by unfold SameTy; decide))

example (H : Nat → Nat → Nat) (HS : List Nat → Nat) (c : List UInt8) := wide_numbers_are_never_looked_up H HS passed_both ⟨15, 16, [c], 1, 1⟩ ⟨15, 16, [], 0, 1⟩ rfl (by simp) (by simp)
  (by simp) (by simp) none

example (H : Nat → Nat → Nat) (HS : List Nat → Nat) :=
  member_table_too_small_partial H HS passed_both ⟨5, 4, [], 0, 1⟩ ⟨5, 4, [[1, 0, 0, 0], [2, 0, 0, 0], [3, 0, 0, 0], [4, 0, 0, 0]], 4, 1⟩ (.inl rfl) (by decide) rfl (by decide) (by decide)
    (by decide) (by decide) [[1, 0, 0, 0], [2, 0, 0, 0], [3, 0, 0, 0], [4, 0, 0, 0]] (by decide) (by decide) (.inr (by decide)) none

example (H : Nat → Nat → Nat) (HS : List Nat → Nat) :=
  member_text_table_too_small_partial H HS passed_both ⟨18, 3, [], 0, 1⟩ ⟨18, 3, [[1, 0, 0], [2, 0, 0], [3, 0, 0], [4, 0, 0]], 4, 1⟩ rfl (by decide) (by decide) (by decide) (by decide)
    (by decide) (by decide) 3 (by decide) [[1, 0, 0], [2, 0, 0], [3, 0, 0], [4, 0, 0]] (by decide)
    (by
      intro v hv
      simp only [List.mem_cons, List.not_mem_nil, or_false] at hv
      rcases hv with rfl | rfl | rfl | rfl
      · exact ⟨[1, 0, 0], by decide, rfl⟩
      · exact ⟨[2, 0, 0], by decide, rfl⟩
      · exact ⟨[3, 0, 0], by decide, rfl⟩
      · exact ⟨[4, 0, 0], by decide, rfl⟩) (.inr (by decide)) none

/-! ## Cases -/

/-- An array of `int32` with these items next to each other. -/
def i32Arr (l : List (List UInt8)) : CatArr := ⟨5, 4, l, l.length, 1⟩

/-- **C132** fails for arrays with gaps: every other element of the first array is asked for, but the elements next to each other are answered. -/
theorem member_strides_are_ignored : ∃ a b : CatArr, Elements a.cells a.rows a.step ([[1, 0, 0, 0], [3, 0, 0, 0]] : List (List UInt8)) ∧
    b = i32Arr [[1, 0, 0, 0], [3, 0, 0, 0]] ∧
    isMemberCall (fun _ k => k) (fun _ => 0) [a, b] [1] none = some (.arrays 0 .i8 [some (true, 0), some (false, -128)]) := by
  refine ⟨⟨5, 4, [[1, 0, 0, 0], [2, 0, 0, 0], [3, 0, 0, 0]], 2, 2⟩, i32Arr [[1, 0, 0, 0], [3, 0, 0, 0]], ⟨rfl, ?_⟩, rfl, by decide +kernel⟩
  intro i hi
  match i, hi with
  | 0, _ => exact ⟨_, rfl, rfl⟩
  | 1, _ => exact ⟨_, rfl, rfl⟩

/-- **C132** fails for zeros of two signs (`float32`): they are equal, and 0.0 is not found (the hash is `HASH_FLOAT1`). -/
theorem member_signed_zeros : SameFloat FT.f32 0 2147483648 ∧
    isMemberCall (fun _ k => k ^^^ (k >>> 20)) (fun _ => 0) [⟨11, 4, [[0, 0, 0, 0]], 1, 1⟩, ⟨11, 4, [[0, 0, 0, 128]], 1, 1⟩] [1] none =
      some (.arrays 0 .i8 [some (false, -128)]) := by
  constructor
  · unfold SameFloat; decide
  · decide +kernel

/-- Half floats are compared as bytes: the zeros differ, and a NaN is found. -/
theorem member_half_floats (H : Nat → Nat → Nat) (HS : List Nat → Nat) {nums : List Int} {mode : Int} {hint : Nat} (hp : Passed nums mode hint) :
    ∃ out, isMemberCall H HS [⟨23, 2, [[0, 0], [0, 126]], 2, 1⟩, ⟨23, 2, [[0, 128], [0, 126]], 2, 1⟩] nums none = some (.arrays 0 .i8 (out.map some)) ∧
      out = [(false, -128), (true, 1)] := by
  obtain ⟨t, out, e, ht, hl, ha⟩ := member_numbers_partial H HS hp ⟨23, 2, [[0, 0], [0, 126]], 2, 1⟩ ⟨23, 2, [[0, 128], [0, 126]], 2, 1⟩
    (.inl rfl) (by decide) rfl (by decide) (by decide) (by decide) (by decide) [[0, 0], [0, 126]] [[0, 128], [0, 126]]
    ⟨rfl, fun i hi => by match i, hi with
      | 0, _ => exact ⟨_, rfl, rfl⟩
      | 1, _ => exact ⟨_, rfl, rfl⟩⟩
    ⟨rfl, fun i hi => by match i, hi with
      | 0, _ => exact ⟨_, rfl, rfl⟩
      | 1, _ => exact ⟨_, rfl, rfl⟩⟩ (by decide) (by decide) [[0, 128], [0, 126]] (by decide) (.inr (.inl rfl))
    (par := none) (workers := 0) (nt := true) (.direct (.inr rfl))
  have ht : t = .i8 := by unfold IndexFor at ht; simp at ht; exact ht
  subst ht
  refine ⟨out, e, ?_⟩
  match out, hl with
  | [p, q], _ =>
    have h0 := ha 0 [0, 0] p rfl rfl
    have h1 := ha 1 [0, 126] q rfl rfl
    have e0 : p = (false, -128) := by
      rcases h0 with ⟨_, j, _, ⟨y, hy, hs⟩, _⟩ | ⟨g1, g2, _⟩
      · exfalso
        subst hs
        revert hy
        match j with
        | 0 => decide
        | 1 => decide
        | j + 2 => simp
      · exact Prod.ext g1 g2
    have e1 : q = (true, 1) := by
      rcases h1 with ⟨g, j, hj, ⟨y, hy, hs⟩, _⟩ | ⟨_, _, g⟩
      · subst hs
        revert hy
        match j, hj with
        | 0, _ => intro hy; exact absurd hy (by decide)
        | 1, hj => intro _; exact Prod.ext g hj
        | j + 2, _ => simp
      · exact absurd rfl (g [0, 126] (by simp))
    rw [e0, e1]

/-- A table that is exactly full cannot answer for an item that is not in it: an exception that loses two arrays when there is one thread, the end of the process when there are more. -/
theorem member_exactly_full : isMemberCall (fun _ k => k) (fun _ => 0) [i32Arr [[2, 0, 0, 0]], i32Arr [[1, 0, 0, 0]]] [0, 1] none = some (.error 2) ∧
    isMemberCall (fun _ k => k) (fun _ => 0) [i32Arr [[2, 0, 0, 0]], i32Arr [[1, 0, 0, 0]]] [0, 1] (some [0]) = none ∧
    isMemberCall (fun _ k => k) (fun _ => 0) [i32Arr [[1, 0, 0, 0]], i32Arr [[1, 0, 0, 0]]] [0, 1] (some [0]) = some (.arrays 0 .i8 [some (true, 0)]) := by
  decide +kernel

/-- Text of three bytes: found at its first place, and one array is lost in every call. -/
theorem member_text_case : isMemberCall (fun _ k => k) (fun l => l.length) [⟨18, 3, [[97, 0, 0], [98, 0, 0]], 2, 1⟩, ⟨18, 2, [[98, 98], [97, 0], [97, 0]], 3, 1⟩] [1] none =
    some (.arrays 1 .i8 [some (true, 1), some (false, -128)]) := by decide +kernel

end Riptide.Hash
