import Verif.Take.CallSpec
import Verif.Mask.CallProps
/-! What the call `mbget` answers (C142). -/
namespace Riptide.Take.Call
open Riptide.Binary Riptide.Work Riptide.Take Riptide.Mask.Call Riptide.Mask.Call.Spec Riptide.Take.Call.Spec

/-! ## The default -/

theorem le_eq : ∀ (n : Nat) (v : Int), le n v = enc n v
  | 0, _ => rfl
  | n + 1, v => by
    rw [enc, ← le_eq n (v / 256)]
    unfold le
    rw [List.range_succ_eq_map, List.map_cons, List.map_map]
    congr 1
    · simp
    · apply List.map_congr_left
      intro k _
      simp only [Function.comp, Nat.succ_eq_add_one, Int.pow_succ]
      rw [Int.mul_comm, Int.ediv_ediv_of_nonneg (by decide)]

theorem enc_length : ∀ (n : Nat) (v : Int), (enc n v).length = n
  | 0, _ => rfl
  | n + 1, v => by rw [enc, List.length_cons, enc_length n]

theorem ty_cases {t : Nat} {y : Ty} (h : ty t = some y) :
    t = 0 ∨ t = 1 ∨ t = 2 ∨ t = 3 ∨ t = 4 ∨ t = 5 ∨ t = 6 ∨ t = 7 ∨ t = 8 ∨ t = 9 ∨ t = 10 ∨ t = 11 ∨ t = 12 ∨ t = 13 ∨ t = 18 ∨ t = 19 := by
  unfold ty at h
  split at h <;> simp_all

theorem size_eq {t : Nat} {y : Ty} {item : Nat} (h : ty t = some y) (hs : HasSize item y) : t = 18 ∨ t = 19 ∨ (t ≤ 13 ∧ item = size t) := by
  rcases ty_cases h with h | h | h | h | h | h | h | h | h | h | h | h | h | h | h | h <;> subst h <;>
    simp only [ty, Option.some.injEq] at h <;> subst h <;> first
    | exact .inl rfl
    | exact .inr (.inl rfl)
    | exact .inr (.inr ⟨by decide, hs⟩)

/-- `GetDefaultForType` gives the invalid value of the type. -/
theorem default_invalid {t : Nat} {y : Ty} {item : Nat} (h : ty t = some y) (hn : t ≤ 13) : typeDefault t = some (invalid item y) := by
  rcases ty_cases h with h | h | h | h | h | h | h | h | h | h | h | h | h | h | h | h <;> subst h <;>
    simp only [ty, Option.some.injEq] at h <;> subst h <;> first
    | rfl
    | (simp only [typeDefault, invalid]; decide +kernel)
    | (exact absurd hn (by decide))

theorem int_cases {t : Nat} {i : IT} (h : ty t = some (.int i)) :
    (i.signed = true ∧ i.bits ≤ 64 ∧ 8 ≤ i.bits ∧ size t = i.bits / 8 ∧ intOf t = some i ∧ indexOf t = some (i.signed, i.bits) ∧
      ∀ v w, putInt t v w = .bytes (le (size t) v)) ∨
    (i.signed = false ∧ i.bits ≤ 64 ∧ 8 ≤ i.bits ∧ size t = i.bits / 8 ∧ intOf t = some i ∧ indexOf t = some (i.signed, i.bits) ∧
      ∀ v w, putInt t v w = .bytes (le (size t) w)) := by
  rcases ty_cases h with h | h | h | h | h | h | h | h | h | h | h | h | h | h | h | h <;> subst h <;>
    simp only [ty, Option.some.injEq, Ty.int.injEq, reduceCtorEq] at h <;> subst h <;> first
    | exact .inl ⟨rfl, by decide, by decide, rfl, rfl, rfl, fun _ _ => rfl⟩
    | exact .inr ⟨rfl, by decide, by decide, rfl, rfl, rfl, fun _ _ => rfl⟩

theorem range_signed {i : IT} (hs : i.signed = true) (hb : i.bits ≤ 64) {v : Int} (h : i.InRange v) : -2 ^ 63 ≤ v ∧ v < 2 ^ 63 := by
  unfold IT.InRange IT.lo IT.hi at h
  simp only [hs, if_true] at h
  have : (2 : Int) ^ (i.bits - 1) ≤ 2 ^ 63 := by
    have := Nat.pow_le_pow_right (n := 2) (by decide) (show i.bits - 1 ≤ 63 by omega)
    exact_mod_cast this
  omega

theorem range_unsigned {i : IT} (hs : i.signed = false) (hb : i.bits ≤ 64) {v : Int} (h : i.InRange v) : 0 ≤ v ∧ v < 2 ^ 64 := by
  unfold IT.InRange IT.lo IT.hi at h
  simp only [hs, Bool.false_eq_true, if_false] at h
  have : (2 : Int) ^ i.bits ≤ 2 ^ 64 := by
    have := Nat.pow_le_pow_right (n := 2) (by decide) (show i.bits ≤ 64 by omega)
    exact_mod_cast this
  omega

theorem bmod_small {v : Int} (h : -2 ^ 63 ≤ v ∧ v < 2 ^ 63) : Int.bmod v (2 ^ 64) = v := by
  rw [Int.bmod_def]
  split <;> omega

/-- The defaults which are kept as they are: floats hold an integer only if it fits 64 bits with a sign, and texts have at most 1024 bytes. -/
def Kept (item : Nat) (y : Ty) : Obj → Prop
  | .none => match y with
    | .text => item ≤ 1024
    | _ => True
  | .int v => match y with
    | .flt _ => -2 ^ 63 ≤ v ∧ v < 2 ^ 63
    | _ => True
  | .npInt v => match y with
    | .flt _ => -2 ^ 63 ≤ v ∧ v < 2 ^ 63
    | _ => True
  | _ => True

theorem number_length {item : Nat} {y : Ty} {v : Int} {l : List Byte} (hs : HasSize item y) (h : ofNumber v y = some l) : l.length = item := by
  cases y <;> simp only [ofNumber, Option.some.injEq, reduceCtorEq] at h <;> simp only [HasSize] at hs
  · split at h <;> simp only [Option.some.injEq, reduceCtorEq] at h
    rw [← h, enc_length, hs]
  · split at h <;> simp only [Option.some.injEq, reduceCtorEq] at h
    rw [← h, enc_length, hs]
  · rw [← h, enc_length, hs]

theorem missing_length {item : Nat} {y : Ty} {d : Obj} {l : List Byte} (hs : HasSize item y) (h : missing item y d = some l) : l.length = item := by
  cases d with
  | none =>
    simp only [missing, Option.some.injEq] at h
    cases y <;> simp only [HasSize] at hs <;> rw [← h] <;> simp [invalid, enc_length, hs]
  | bool b => exact number_length hs h
  | int v => exact number_length hs h
  | npInt v => exact number_length hs h
  | float b =>
    cases y <;> simp only [missing, ofFloat, Option.some.injEq, reduceCtorEq, Option.map_eq_some_iff] at h <;> simp only [HasSize] at hs
    · obtain ⟨v, _, h⟩ := h
      rw [← h, enc_length, hs]
    · rw [← h, enc_length, hs]
  | text => simp [missing] at h
  | other => simp [missing] at h

/-- The bytes of the default are those of the item which should stand for an index out of range. -/
theorem fill_missing {t item : Nat} {y : Ty} {d : Obj} {l : List Byte} (ht : ty t = some y) (hs : HasSize item y)
    (hm : missing item y d = some l) (hk : Kept item y d) : ∃ f, fill t d = .bytes f ∧ ∀ k, k < item → f k = l[k]? := by
  have hconv : ∀ s : List Byte, convert t d = .bytes s → s = l → ∃ f, fill t d = .bytes f ∧ ∀ k, k < item → f k = l[k]? := by
    intro s h1 h2
    subst h2
    have : ∃ e, typeDefault t = some e := by
      rcases ty_cases ht with h | h | h | h | h | h | h | h | h | h | h | h | h | h | h | h <;> subst h <;> exact ⟨_, rfl⟩
    obtain ⟨e, he⟩ := this
    refine ⟨fun k => s[k]?, ?_, fun _ _ => rfl⟩
    simp only [fill, he, h1]
  cases d with
  | none =>
    simp only [missing, Option.some.injEq] at hm
    subst hm
    rcases size_eq ht hs with h | h | h
    · subst h
      simp only [ty, Option.some.injEq] at ht
      subst ht
      simp only [Kept] at hk
      refine ⟨fun k => (List.replicate 1024 0#8)[k]?, rfl, fun k h => ?_⟩
      simp only [invalid]
      rw [List.getElem?_replicate_of_lt (by omega), List.getElem?_replicate_of_lt h]
    · subst h
      simp only [ty, Option.some.injEq] at ht
      subst ht
      simp only [Kept] at hk
      refine ⟨fun k => (List.replicate 1024 0#8)[k]?, rfl, fun k h => ?_⟩
      simp only [invalid]
      rw [List.getElem?_replicate_of_lt (by omega), List.getElem?_replicate_of_lt h]
    · refine ⟨fun k => (invalid item y)[k]?, ?_, fun _ _ => rfl⟩
      simp only [fill, default_invalid (item := item) ht h.1, convert]
  | text => simp [missing] at hm
  | other => simp [missing] at hm
  | bool b =>
    cases y with
    | bool =>
      have : t = 0 := by
        rcases ty_cases ht with h | h | h | h | h | h | h | h | h | h | h | h | h | h | h | h <;> subst h <;> simp_all [ty]
      subst this
      refine hconv (le 1 (if b then 1 else 0)) rfl ?_
      simp only [missing, ofNumber] at hm
      rw [le_eq]
      cases b
      · exact Option.some.inj hm
      · exact Option.some.inj hm
    | int i =>
      simp only [missing, ofNumber] at hm
      generalize hv : (if b = true then (1 : Int) else 0) = v at hm
      split at hm
      · simp only [Option.some.injEq] at hm
        rcases int_cases ht with ⟨_, _, _, hz, _, _, hp⟩ | ⟨_, _, _, hz, _, _, hp⟩ <;>
          exact hconv _ (hp _ _) (by rw [hv, le_eq, hz, hm])
      · simp at hm
    | flt f =>
      simp only [missing, ofNumber, Option.some.injEq] at hm
      have : (t = 11 ∧ f = .f32) ∨ (t = 12 ∧ f = .f64) := by
        rcases ty_cases ht with h | h | h | h | h | h | h | h | h | h | h | h | h | h | h | h <;> subst h <;> simp_all [ty]
      rcases this with ⟨rfl, rfl⟩ | ⟨rfl, rfl⟩
      · exact hconv _ rfl (by rw [le_eq, ← hm]; rfl)
      · exact hconv _ rfl (by rw [le_eq, ← hm]; rfl)
    | long => simp [missing, ofNumber] at hm
    | text => simp [missing, ofNumber] at hm
  | int v =>
    cases y with
    | bool =>
      have : t = 0 := by
        rcases ty_cases ht with h | h | h | h | h | h | h | h | h | h | h | h | h | h | h | h <;> subst h <;> simp_all [ty]
      subst this
      simp only [missing, ofNumber] at hm
      split at hm
      · rename_i hv
        simp only [Option.some.injEq] at hm
        refine hconv (le 1 v) ?_ (by rw [le_eq, hm])
        have : fitsI64 v = true := by simp [fitsI64]; omega
        simp only [convert, this, if_true, putInt, size]
      · simp at hm
    | int i =>
      simp only [missing, ofNumber] at hm
      split at hm
      · rename_i hr
        simp only [Option.some.injEq] at hm
        rcases int_cases ht with ⟨hsg, hb, _, hz, _, _, hp⟩ | ⟨hsg, hb, _, hz, _, _, hp⟩
        · have hv := range_signed hsg hb hr
          have : fitsI64 v = true := by simp [fitsI64]; omega
          refine hconv _ (by rw [convert]; exact hp _ _) ?_
          simp only [this, if_true]
          rw [le_eq, hz, hm]
        · have hv := range_unsigned hsg hb hr
          refine hconv _ (by rw [convert]; exact hp _ _) ?_
          have e : (if 0 ≤ (if fitsI64 v = true then v else -1) ∨ 2 ^ 63 ≤ v then v % 2 ^ 64 else (if fitsI64 v = true then v else -1)) = v := by
            rw [if_pos]
            · omega
            · by_cases h3 : 2 ^ 63 ≤ v
              · exact .inr h3
              · have : fitsI64 v = true := by simp [fitsI64]; omega
                simp only [this, if_true]
                exact .inl hv.1
          rw [e, le_eq, hz, hm]
      · simp at hm
    | flt f =>
      simp only [missing, ofNumber, Option.some.injEq] at hm
      simp only [Kept] at hk
      have : (t = 11 ∧ f = .f32) ∨ (t = 12 ∧ f = .f64) := by
        rcases ty_cases ht with h | h | h | h | h | h | h | h | h | h | h | h | h | h | h | h <;> subst h <;> simp_all [ty]
      have hf : fitsI64 v = true := by simp [fitsI64]; omega
      rcases this with ⟨rfl, rfl⟩ | ⟨rfl, rfl⟩
      · refine hconv (le 4 (FT.f32.ofInt v)) ?_ (by rw [le_eq, ← hm]; rfl)
        simp only [convert, hf, if_true, putInt]
      · refine hconv (le 8 (FT.f64.ofInt v)) ?_ (by rw [le_eq, ← hm]; rfl)
        simp only [convert, hf, if_true, putInt]
    | long => simp [missing, ofNumber] at hm
    | text => simp [missing, ofNumber] at hm
  | npInt v =>
    cases y with
    | bool =>
      have : t = 0 := by
        rcases ty_cases ht with h | h | h | h | h | h | h | h | h | h | h | h | h | h | h | h <;> subst h <;> simp_all [ty]
      subst this
      simp only [missing, ofNumber] at hm
      split at hm
      · rename_i hv
        simp only [Option.some.injEq] at hm
        refine hconv (le 1 v) ?_ (by rw [le_eq, hm])
        simp only [convert, bmod_small (v := v) (by omega), putInt, size]
      · simp at hm
    | int i =>
      simp only [missing, ofNumber] at hm
      split at hm
      · rename_i hr
        simp only [Option.some.injEq] at hm
        rcases int_cases ht with ⟨hsg, hb, _, hz, _, _, hp⟩ | ⟨hsg, hb, _, hz, _, _, hp⟩
        · refine hconv _ (by rw [convert]; exact hp _ _) ?_
          rw [bmod_small (range_signed hsg hb hr), le_eq, hz, hm]
        · refine hconv _ (by rw [convert]; exact hp _ _) ?_
          rw [le_eq, hz, hm]
      · simp at hm
    | flt f =>
      simp only [missing, ofNumber, Option.some.injEq] at hm
      simp only [Kept] at hk
      have : (t = 11 ∧ f = .f32) ∨ (t = 12 ∧ f = .f64) := by
        rcases ty_cases ht with h | h | h | h | h | h | h | h | h | h | h | h | h | h | h | h <;> subst h <;> simp_all [ty]
      rcases this with ⟨rfl, rfl⟩ | ⟨rfl, rfl⟩
      · refine hconv (le 4 (FT.f32.ofInt v)) ?_ (by rw [le_eq, ← hm]; rfl)
        simp only [convert, bmod_small hk, putInt]
      · refine hconv (le 8 (FT.f64.ofInt v)) ?_ (by rw [le_eq, ← hm]; rfl)
        simp only [convert, bmod_small hk, putInt]
    | long => simp [missing, ofNumber] at hm
    | text => simp [missing, ofNumber] at hm
  | float b =>
    cases y with
    | bool => simp [missing, ofFloat] at hm
    | int i =>
      simp only [missing, ofFloat, Option.map_eq_some_iff] at hm
      obtain ⟨v, hv, hm⟩ := hm
      rcases int_cases ht with ⟨_, _, _, hz, hi, _, _⟩ | ⟨_, _, _, hz, hi, _, _⟩ <;>
        exact hconv (le (size t) v) (by simp only [convert, putFloat, hi, hv]) (by rw [le_eq, hz, hm])
    | flt f =>
      simp only [missing, ofFloat, Option.some.injEq] at hm
      have : (t = 11 ∧ f = .f32) ∨ (t = 12 ∧ f = .f64) := by
        rcases ty_cases ht with h | h | h | h | h | h | h | h | h | h | h | h | h | h | h | h <;> subst h <;> simp_all [ty]
      rcases this with ⟨rfl, rfl⟩ | ⟨rfl, rfl⟩
      · exact hconv (le 4 (Bins.Call.convF .f64 .f32 b)) rfl (by rw [le_eq, ← hm]; rfl)
      · exact hconv (le 8 b) rfl (by rw [le_eq, ← hm]; rfl)
    | long => simp [missing, ofFloat] at hm
    | text => simp [missing, ofFloat] at hm

/-! ## The items -/

/-- The items of an array of any shape are at the places `l`, `s` bytes apart, in C order or (`Full`: no dimension with a single item) in Fortran
order. -/
structure Listed (a : Lay) (l : List Int) (s : Int) : Prop where
  wf : a.strides.length = a.dims.length
  even : Even s l
  order : (l = inC a.dims a.strides ∧ Fit a) ∨ (l = inF a.dims a.strides ∧ Full a ∧ 1 < a.dims.length)

theorem Listed.length {a : Lay} {l : List Int} {s : Int} (h : Listed a l s) : l.length = a.len := by
  rcases h.order with ⟨e, _⟩ | ⟨e, _⟩
  · rw [e]; exact inC_length _ _ h.wf
  · rw [e]; exact inF_length _ _ h.wf

theorem full_len {a : Lay} (hf : Full a) (hn : 0 < a.dims.length) : 1 < a.len := by
  have h3 : ∀ l : List Nat, 0 < l.length → (∀ d ∈ l, 1 < d) → 1 < prod l := by
    intro l
    induction l with
    | nil => intro h; simp at h
    | cons d l ih =>
      intro _ h
      have hd := h d (List.mem_cons_self ..)
      rw [prod]
      rcases Nat.eq_zero_or_pos l.length with h0 | h0
      · rw [List.eq_nil_of_length_eq_zero h0, prod]; omega
      · have := ih h0 (fun x hx => h x (List.mem_cons_of_mem _ hx))
        have := Nat.mul_lt_mul'' hd this
        omega
  exact h3 _ hn hf

theorem Listed.walk {a : Lay} {l : List Int} {s : Int} (h : Listed a l s) : refuses a = false ∧ (1 < a.len → step a = s) := by
  rcases h.order with ⟨e, hf⟩ | ⟨e, hf, hn⟩
  · have := h.even; rw [e] at this; exact walked_c h.wf this hf
  · have he := h.even; rw [e] at he
    have hl := full_len hf (by omega)
    refine ⟨by simp [refuses, taken_even h.wf (by omega) (.inr he) (.inr hf)], fun hl => ?_⟩
    exact step_even h.wf hl (.inr he) (.inr (full_ends hf (by omega) s))

theorem step_one {a : Lay} (hn : a.dims.length ≤ 1) (hl : a.len ≤ 1) : step a = a.item := by
  unfold step Unary.contig
  rw [if_pos hn]
  unfold Unary.headStride
  rw [if_neg]
  rintro ⟨h0, h1⟩
  have : a.len = Unary.dim a 0 := by
    rcases a with ⟨dims, ss, item⟩
    simp only at hn h0
    match dims, hn, h0 with
    | [d], _, _ => simp [Lay.len, prod, Unary.dim]
  omega

/-- The walk over the arrays is right: the call is the fancy get of the items at their places. -/
theorem gather_exact {a : Lay} {vals : Int → Byte} {x : Ix} {i : IT} {f : Nat → Option Byte} {dflt : List Byte} {lv lx : List Int} {sv sx : Int}
    (ha : Listed a lv sv) (hx : Listed x.lay lx sx) (hf : ∀ k, k < a.item → f k = dflt[k]?) (hd : dflt.length = a.item)
    (hb : 0 < i.bits) (hin : ∀ o ∈ lx, i.InRange (x.num o))
    (hg : i.signed = true ∨ (fixedSize a.item = true ∧ (a.len : Int) ≤ 2 ^ (i.bits - 1)))
    {workers : Nat} {nt : Bool} {par : Option (List Nat)} (hp : ChunkSched workers x.lay.len nt par)
    (hc : x.lay.len < big ∨ nt = true ∨ (sv = a.item ∧ (1 < a.len ∨ a.dims.length ≤ 1))) :
    gather a vals x (i.signed, i.bits) f par =
      .ok ((lx.flatMap fun o => Take.Spec.get (lv.map (itemAt vals a.item)) dflt (x.num o)).map some) := by
  obtain ⟨_, sa⟩ := ha.walk
  obtain ⟨_, sxx⟩ := hx.walk
  have hnum : numbers x = lx.map x.num := read_even x.num sxx hx.even hx.length
  have hitems : items vals a.len (step a) a.item = lv.map (itemAt vals a.item) := read_even (itemAt vals a.item) sa ha.even ha.length
  have hlen : (numbers x).length = x.lay.len := by unfold numbers; simp
  have hv : (Index.mk i.signed i.bits (numbers x)).Valid := by
    refine ⟨hb, ?_, ?_⟩
    · intro hs v hv
      simp only at hs hv ⊢
      rw [hnum, List.mem_map] at hv
      obtain ⟨o, ho, rfl⟩ := hv
      have := hin o ho
      unfold IT.InRange IT.lo IT.hi at this
      simp only [hs, if_true] at this
      omega
    · intro hs v hv
      simp only at hs hv ⊢
      rw [hnum, List.mem_map] at hv
      obtain ⟨o, ho, rfl⟩ := hv
      have := hin o ho
      unfold IT.InRange IT.lo IT.hi at this
      simp only [hs, Bool.false_eq_true, if_false] at this
      omega
  have hc' : (Index.mk i.signed i.bits (numbers x)).vals.length < big ∨ nt = true ∨ step a = a.item := by
    simp only [hlen]
    rcases hc with h | h | ⟨h1, h2⟩
    · exact .inl h
    · exact .inr (.inl h)
    · refine .inr (.inr ?_)
      rcases Nat.lt_or_ge 1 a.len with h3 | h3
      · rw [sa h3, h1]
      · rcases h2 with h2 | h2
        · omega
        · exact step_one h2 h3
  have hp' : ChunkSched workers (Index.mk i.signed i.bits (numbers x)).vals.length nt par := by simpa only [hlen] using hp
  obtain ⟨copies, hm, he⟩ := fancy_get_exact_partial (Index.mk i.signed i.bits (numbers x)) hv vals (fun k => (f k).getD 0#8) a.len (step a) a.item
    (x.lay.len + 1) hg hp' hc'
  obtain ⟨copies', hm', hperm⟩ := mbget_perm (Index.mk i.signed i.bits (numbers x)) a.len (step a) a.item (x.lay.len + 1)
    (hg.imp id (·.1)) hp' hc'
  rw [hm] at hm'
  have := Option.some.inj hm'
  subst this
  unfold gather
  simp only [hm]
  unfold run
  rw [if_neg]
  · simp only at he
    rw [hlen] at he
    rw [he]
    simp only
    have hdd : (List.range a.item).map (fun k => (f k).getD 0#8) = dflt := by
      apply List.ext_getElem
      · simp [hd]
      · intro k h1 h2
        simp only [List.length_map, List.length_range] at h1
        simp only [List.getElem_map, List.getElem_range]
        rw [hf k h1, List.getElem?_eq_getElem h2]; rfl
    rw [hdd, hitems, hnum, List.flatMap_map]
  · rw [Bool.not_eq_true, List.any_eq_false]
    intro c hcm
    have hcm := hperm.mem_iff.1 hcm
    simp only [rowCopies, List.mem_flatMap, List.mem_range, itemCopy, List.mem_map, itemOffs_eq] at hcm
    obtain ⟨r, _, k, hk, rfl⟩ := hcm
    unfold badDefault
    simp only
    split
    · rename_i k' hk'
      split at hk'
      · simp at hk'
      · simp only [Src.dflt.injEq] at hk'
        subst hk'
        rw [hf k hk, List.getElem?_eq_getElem (by omega)]
        simp
    · simp

theorem kind_ok {t : Nat} {y : Ty} (h : ty t = some y) (item : Nat) : (outItem (kindOf t) item).isNone = false := by
  rcases ty_cases h with h | h | h | h | h | h | h | h | h | h | h | h | h | h | h | h <;> subst h <;> rfl

theorem index_type {t : Nat} {i : IT} (h : ty t = some (.int i)) : 0 < t ∧ t ≤ 13 ∧ indexOf t = some (i.signed, i.bits) ∧ 0 < i.bits := by
  rcases ty_cases h with h | h | h | h | h | h | h | h | h | h | h | h | h | h | h | h <;> subst h <;>
    simp only [ty, Option.some.injEq, Ty.int.injEq, reduceCtorEq] at h <;> subst h <;> decide

/-- The call with whatever bytes the default has. -/
theorem get_with {t : Nat} {a : Lay} {vals : Int → Byte} {x : Ix} {d : Obj} {y : Ty} {i : IT} {f : Nat → Option Byte} {dflt : List Byte}
    {lv lx : List Int} {sv sx : Int} (ht : ty t = some y) (hf : fill t d = .bytes f) (hfk : ∀ k, k < a.item → f k = dflt[k]?) (hd : dflt.length = a.item)
    (ha : Listed a lv sv) (hx : Listed x.lay lx sx) (hi : ty x.type = some (.int i)) (hin : ∀ o ∈ lx, i.InRange (x.num o))
    (hg : i.signed = true ∨ (a.item ∈ [1, 2, 4, 8, 16] ∧ (a.len : Int) ≤ 2 ^ (i.bits - 1)))
    {workers : Nat} {nt : Bool} {par : Option (List Nat)} (hp : ChunkSched workers x.lay.len nt par)
    (hc : x.lay.len < big ∨ nt = true ∨ (sv = a.item ∧ (1 < a.len ∨ a.dims.length ≤ 1))) (par2 : Option (List Nat)) :
    getCall t a vals x d par par2 =
      .ok ((lx.flatMap fun o => Take.Spec.get (lv.map (itemAt vals a.item)) dflt (x.num o)).map some) := by
  obtain ⟨h0, h13, hio, hb⟩ := index_type hi
  unfold getCall
  rw [if_neg (by omega), if_neg (by omega), if_neg (by simp [ha.walk.1]), if_neg (by simp [hx.walk.1])]
  by_cases hl : x.lay.len = 0
  · rw [if_pos hl, kind_ok ht]
    have : lx = [] := List.eq_nil_of_length_eq_zero (by rw [hx.length]; exact hl)
    subst this
    rfl
  · rw [if_neg hl, hio]
    simp only [kind_ok ht, Bool.false_eq_true, if_false, hf]
    refine gather_exact ha hx hfk hd hb hin (hg.imp id fun h => ⟨?_, h.2⟩) hp hc
    have := h.1
    simp only [List.mem_cons, List.not_mem_nil, or_false] at this
    simp [fixedSize]
    omega

/-- C142 (partial: guarded). `mbget` of values and an index of any shape, evenly spaced in C order or in Fortran order, with the default `d`: for
every number of the index the item which Python's rules select from the items of the values, or the item which stands for the default, one after the
other, under every schedule of the workers. The values may be bools, integers, floats or texts (for the long double no default must be given).
Guards: the index has a sign, or the items have 1, 2, 4, 8 or 16 bytes and the values are at most `2^(bits-1)`; with threads the values are packed;
the default is kept (`Kept`), and it is a number which the type can hold (`missing`). What is missing: the other types, for which the process ends
(`dates_crash`), and defaults which are not kept (`text_default_undefined`, `long_texts_undefined`, `large_default_wrong`, `numpy_default_wrong`,
`long_double_default_wrong`, `nan_default_undefined`) or which the types cannot hold (`bool_default_wrong`, `default_wraps`, `text_values_default_ignored`). -/
theorem get_partial {t : Nat} {a : Lay} {vals : Int → Byte} {x : Ix} {d : Obj} {y : Ty} {i : IT} {dflt : List Byte} {lv lx : List Int} {sv sx : Int}
    (ht : ty t = some y) (hs : HasSize a.item y) (hm : missing a.item y d = some dflt) (hk : Kept a.item y d)
    (ha : Listed a lv sv) (hx : Listed x.lay lx sx) (hi : ty x.type = some (.int i)) (hin : ∀ o ∈ lx, i.InRange (x.num o))
    (hg : i.signed = true ∨ (a.item ∈ [1, 2, 4, 8, 16] ∧ (a.len : Int) ≤ 2 ^ (i.bits - 1)))
    {workers : Nat} {nt : Bool} {par : Option (List Nat)} (hp : ChunkSched workers x.lay.len nt par)
    (hc : x.lay.len < big ∨ nt = true ∨ (sv = a.item ∧ (1 < a.len ∨ a.dims.length ≤ 1))) (par2 : Option (List Nat)) :
    getCall t a vals x d par par2 =
      .ok ((lx.flatMap fun o => Take.Spec.get (lv.map (itemAt vals a.item)) dflt (x.num o)).map some) := by
  obtain ⟨f, hf, hfk⟩ := fill_missing ht hs hm hk
  exact get_with ht hf hfk (missing_length hs hm) ha hx hi hin hg hp hc par2

/-- Places of a one-dimensional array. -/
theorem listed_one (n : Nat) (s : Int) (item : Nat) : Listed ⟨[n], [s], item⟩ ((List.range n).map fun (k : Nat) => (k : Int) * s) s := by
  refine ⟨rfl, ?_, .inl ⟨?_, .inl (by simp)⟩⟩
  · intro k hk
    simp only [List.length_map, List.length_range] at hk
    simp [hk]
  · simp [inC, flatMap_single]

/-- Three int16, backwards, taken by four int8, of which one is out of range: the default is the invalid value; and with the default 7. -/
example : ty 3 = some (.int .i16) ∧ missing 2 (.int .i16) .none = some [0#8, 0x80#8] ∧ missing 2 (.int .i16) (.int 7) = some [7#8, 0#8] ∧
    Kept 2 (.int .i16) (.int 7) ∧ HasSize 2 (.int .i16) ∧
    getCall 3 ⟨[3], [-2], 2⟩ (fun o => BitVec.ofInt 8 o) ⟨1, ⟨[4], [1], 1⟩, fun o => if o = 0 then 2 else if o = 1 then -1 else if o = 2 then 3 else 0,
      fun _ => 0#8⟩ .none none none = .ok ([0xFC#8, 0xFD#8, 0xFC#8, 0xFD#8, 0#8, 0x80#8, 0#8, 1#8].map some) ∧
    getCall 3 ⟨[3], [-2], 2⟩ (fun o => BitVec.ofInt 8 o) ⟨1, ⟨[4], [1], 1⟩, fun o => if o = 0 then 2 else if o = 1 then -1 else if o = 2 then 3 else 0,
      fun _ => 0#8⟩ (.int 7) none none = .ok ([0xFC#8, 0xFD#8, 0xFC#8, 0xFD#8, 7#8, 0#8, 0#8, 1#8].map some) :=
  ⟨rfl, by decide, by decide, trivial, rfl, by decide +kernel, by decide +kernel⟩

/-- C142. Values and index in C order and of any shape: the index selects from the values as numpy lists them, and the result is in the order in which
numpy lists the index. -/
theorem contiguous_partial {t : Nat} {a : Lay} {vals : Int → Byte} {x : Ix} {d : Obj} {y : Ty} {i : IT} {dflt : List Byte}
    (ht : ty t = some y) (hs : HasSize a.item y) (hm : missing a.item y d = some dflt) (hk : Kept a.item y d)
    (hwa : a.strides.length = a.dims.length) (hwx : x.lay.strides.length = x.lay.dims.length) (hca : a.cContig = true) (hcx : x.lay.cContig = true)
    (hi : ty x.type = some (.int i)) (hsg : i.signed = true) (hl : 1 < a.len) (hin : ∀ o ∈ inC x.lay.dims x.lay.strides, i.InRange (x.num o))
    {workers : Nat} {nt : Bool} {par : Option (List Nat)} (hp : ChunkSched workers x.lay.len nt par) (par2 : Option (List Nat)) :
    getCall t a vals x d par par2 =
      .ok (((inC x.lay.dims x.lay.strides).flatMap fun o =>
        Take.Spec.get ((inC a.dims a.strides).map (itemAt vals a.item)) dflt (x.num o)).map some) :=
  get_partial ht hs hm hk ⟨hwa, contiguous_even_c hwa hca, .inl ⟨rfl, .inr (.inr hca)⟩⟩ ⟨hwx, contiguous_even_c hwx hcx, .inl ⟨rfl, .inr (.inr hcx)⟩⟩
    hi hin (.inl hsg) hp (.inr (.inr ⟨rfl, .inl hl⟩)) par2

/-- Two rows of two float32 taken by a column of two int64. -/
example : (Lay.mk [2, 2] [8, 4] 4).cContig = true ∧ (Lay.mk [2, 1] [8, 8] 8).cContig = true ∧ 1 < (Lay.mk [2, 2] [8, 4] 4).len ∧
    getCall 11 ⟨[2, 2], [8, 4], 4⟩ (fun o => BitVec.ofInt 8 o) ⟨7, ⟨[2, 1], [8, 8], 8⟩, fun o => if o = 0 then 3 else 4, fun _ => 0#8⟩ .none none none =
      .ok ([12#8, 13#8, 14#8, 15#8, 0#8, 0#8, 0xC0#8, 0x7F#8].map some) := by decide +kernel

/-! ## Every index in range -/

theorem exec_congr {vals : Int → Byte} {f g : Nat → Byte} {len : Nat} {sv : Int} {item n : Nat} {copies : List (Int × Src)}
    (h : ∀ c ∈ copies, ∀ k, c.2 ≠ .dflt k) : execBytes vals f len sv item n copies = execBytes vals g len sv item n copies := by
  unfold execBytes
  congr 1
  induction copies with
  | nil => rfl
  | cons c l ih =>
    rw [List.mapM_cons, List.mapM_cons, ih fun c hc => h c (List.mem_cons_of_mem _ hc)]
    have := h c (List.mem_cons_self ..)
    obtain ⟨p, s⟩ := c
    cases s with
    | val o => rfl
    | dflt k => exact absurd rfl (this k)

theorem resolve_inside {i : IT} {isVar : Bool} {len : Nat} {v : Int} (hb : 0 < i.bits) (hr : i.InRange v)
    (hg : i.signed = true ∨ (len : Int) ≤ 2 ^ (i.bits - 1)) (ho : -(len : Int) ≤ v ∧ v < len) :
    resolve i.signed isVar len (readIdx i.bits v) ≠ none := by
  unfold IT.InRange IT.lo IT.hi at hr
  unfold resolve
  by_cases hs : i.signed = true
  · simp only [hs, if_true] at hr ⊢
    rw [readIdx_eq hb (by omega) (by omega), if_pos ho]
    simp
  · simp only [hs, Bool.false_eq_true, if_false, false_or] at hr hg ⊢
    rw [readIdx_eq hb (by omega) (by omega)]
    have h1 : v < len := ho.2
    have h2 : 0 ≤ v ∧ v < len := ⟨hr.1, ho.2⟩
    split
    · simp [h1]
    · simp [h2]

/-- C142. If every index is in range the default does not matter, not even a text, or one which the type cannot hold. Left out: floats (their cast
may be undefined, `nan_default_undefined`). -/
theorem in_range_partial {t : Nat} {a : Lay} {vals : Int → Byte} {x : Ix} {d : Obj} {y : Ty} {i : IT} {lv lx : List Int} {sv sx : Int}
    (dflt : List Byte) (hdl : dflt.length = a.item) (ht : ty t = some y) (hd : ∀ b, d ≠ .float b)
    (ha : Listed a lv sv) (hx : Listed x.lay lx sx) (hi : ty x.type = some (.int i)) (hin : ∀ o ∈ lx, i.InRange (x.num o))
    (hr : ∀ o ∈ lx, -(a.len : Int) ≤ x.num o ∧ x.num o < a.len)
    (hg : i.signed = true ∨ (a.item ∈ [1, 2, 4, 8, 16] ∧ (a.len : Int) ≤ 2 ^ (i.bits - 1)))
    {workers : Nat} {nt : Bool} {par : Option (List Nat)} (hp : ChunkSched workers x.lay.len nt par)
    (hc : x.lay.len < big ∨ nt = true ∨ (sv = a.item ∧ (1 < a.len ∨ a.dims.length ≤ 1))) (par2 : Option (List Nat)) :
    getCall t a vals x d par par2 =
      .ok ((lx.flatMap fun o => Take.Spec.get (lv.map (itemAt vals a.item)) dflt (x.num o)).map some) := by
  obtain ⟨h0, h13, hio, hb⟩ := index_type hi
  have hg2 : i.signed = true ∨ (fixedSize a.item = true ∧ (a.len : Int) ≤ 2 ^ (i.bits - 1)) := by
    refine hg.imp id fun h => ⟨?_, h.2⟩
    have := h.1
    simp only [List.mem_cons, List.not_mem_nil, or_false] at this
    simp [fixedSize]
    omega
  have hfill : ∃ f, fill t d = .bytes f := by
    have hput : ∀ v w, putInt t v w ≠ .undefined := by
      intro v w
      unfold putInt
      split <;> simp
    have hconv : convert t d ≠ .undefined := by
      cases d with
      | float b => exact absurd rfl (hd b)
      | none => simp [convert]
      | bool b => exact hput _ _
      | int v => exact hput _ _
      | npInt v => exact hput _ _
      | text => simp [convert]
      | other => simp [convert]
    have : ∃ e, typeDefault t = some e := by
      rcases ty_cases ht with h | h | h | h | h | h | h | h | h | h | h | h | h | h | h | h <;> subst h <;> exact ⟨_, rfl⟩
    obtain ⟨e, he⟩ := this
    unfold fill
    rw [he]
    cases hcv : convert t d with
    | no => exact ⟨_, rfl⟩
    | bytes s => exact ⟨_, rfl⟩
    | unset => exact ⟨_, rfl⟩
    | undefined => exact absurd hcv hconv
  obtain ⟨f, hf⟩ := hfill
  unfold getCall
  rw [if_neg (by omega), if_neg (by omega), if_neg (by simp [ha.walk.1]), if_neg (by simp [hx.walk.1])]
  by_cases hl : x.lay.len = 0
  · rw [if_pos hl, kind_ok ht]
    have : lx = [] := List.eq_nil_of_length_eq_zero (by rw [hx.length]; exact hl)
    subst this
    rfl
  rw [if_neg hl, hio]
  simp only [kind_ok ht, Bool.false_eq_true, if_false, hf]
  have hgood := gather_exact (vals := vals) (f := fun k => dflt[k]?) ha hx (fun _ _ => rfl) hdl hb hin hg2 hp hc
  rw [← hgood]
  obtain ⟨_, sa⟩ := ha.walk
  obtain ⟨_, sxx⟩ := hx.walk
  have hnum : numbers x = lx.map x.num := read_even x.num sxx hx.even hx.length
  have hlen : (numbers x).length = x.lay.len := by unfold numbers; simp
  have hc' : (Index.mk i.signed i.bits (numbers x)).vals.length < big ∨ nt = true ∨ step a = a.item := by
    simp only [hlen]
    rcases hc with h | h | ⟨h1, h2⟩
    · exact .inl h
    · exact .inr (.inl h)
    · refine .inr (.inr ?_)
      rcases Nat.lt_or_ge 1 a.len with h3 | h3
      · rw [sa h3, h1]
      · rcases h2 with h2 | h2
        · omega
        · exact step_one h2 h3
  have hp' : ChunkSched workers (Index.mk i.signed i.bits (numbers x)).vals.length nt par := by simpa only [hlen] using hp
  obtain ⟨copies, hm, hperm⟩ := mbget_perm (Index.mk i.signed i.bits (numbers x)) a.len (step a) a.item (x.lay.len + 1) (hg2.imp id (·.1)) hp' hc'
  have hno : ∀ c ∈ copies, ∀ k, c.2 ≠ .dflt k := by
    intro c hcm k hk
    have hcm := hperm.mem_iff.1 hcm
    simp only [rowCopies, List.mem_flatMap, List.mem_range, itemCopy, List.mem_map, itemOffs_eq] at hcm
    obtain ⟨r, hrl, k', _, rfl⟩ := hcm
    simp only at hk hrl
    split at hk
    · simp at hk
    · rename_i hnone
      have hrl : r < (numbers x).length := hrl
      have hrx : r < lx.length := by rw [hx.length, ← hlen]; exact hrl
      have hget : (numbers x)[r]? = some (x.num lx[r]) := by
        rw [hnum, List.getElem?_map, List.getElem?_eq_getElem hrx]; rfl
      rw [hget] at hnone
      exact resolve_inside hb (hin _ (List.getElem_mem hrx)) (hg2.imp id (·.2)) (hr _ (List.getElem_mem hrx)) hnone
  have hbad : ∀ g, copies.any (badDefault g) = false := by
    intro g
    rw [List.any_eq_false]
    intro c hcm
    have := hno c hcm
    unfold badDefault
    split
    · rename_i k hk; exact absurd hk (this k)
    · simp
  unfold gather
  simp only [hm]
  unfold run
  rw [hbad, hbad]
  simp only [Bool.false_eq_true, if_false]
  rw [exec_congr hno]

/-- A text as the default of uint8, and the index -1. -/
example : getCall 2 ⟨[2], [1], 1⟩ (fun o => BitVec.ofInt 8 o) ⟨1, ⟨[1], [1], 1⟩, fun _ => -1, fun _ => 0#8⟩ .text none none = .ok [some 1#8] := by
  decide +kernel

/-! ## Masks -/

/-- C142. An index of bools selects the items at which it is True; whatever default is given. -/
theorem mask_partial {t : Nat} {a : Lay} {vals : Int → Byte} {x : Ix} {y : Ty} (d : Obj) (ht : ty t = some y) (hi : 0 < a.item)
    (hx : x.type = 0) (hlen : x.lay.len = a.len) (hwa : a.strides.length = a.dims.length) (hwf : x.lay.strides.length = x.lay.dims.length)
    (hca : a.cContig = true) (hcf : x.lay.cContig = true) {workers : Nat} {nt : Bool} {par1 par2 : Option (List Nat)}
    (h1 : ChunkSched workers a.len nt par1) (h2 : ChunkSched workers a.len nt par2) :
    getCall t a vals x d par1 par2 =
      .ok (((Mask.Spec.select ((inC a.dims a.strides).map (itemAt vals a.item)) (flags x.flag (inC x.lay.dims x.lay.strides))).flatMap id).map some) := by
  have hk : kindOf t = .text ∨ kindOf t = .plain := by
    rcases ty_cases ht with h | h | h | h | h | h | h | h | h | h | h | h | h | h | h | h <;> subst h <;> first
      | exact .inl rfl
      | exact .inr rfl
  unfold getCall
  rw [if_neg (by omega), if_pos hx]
  unfold byMask
  have := index_contiguous_partial (kindOf t) a (itemAt vals a.item) x.lay x.flag hk hi hlen hwa hwf hca hcf h1 h2
  unfold itemAt at this ⊢
  rw [this]
  simp only [List.flatMap_map, List.map_flatMap, id]

/-- The second of two items. -/
example : getCall 2 ⟨[2], [1], 1⟩ (fun o => BitVec.ofInt 8 (o + 5)) ⟨0, ⟨[2], [1], 1⟩, fun _ => 0, fun o => if o = 1 then 1#8 else 0#8⟩ .text none none =
    .ok [some 6#8] := by decide +kernel

/-- C142. A mask of another length is refused. -/
theorem mask_lengths_refused (t : Nat) (a : Lay) (vals : Int → Byte) (x : Ix) (d : Obj) (hx : x.type = 0) (ha : refuses a = false)
    (hr : refuses x.lay = false) (hlen : x.lay.len ≠ a.len) (par1 par2 : Option (List Nat)) :
    getCall t a vals x d par1 par2 = .error (.mask .lengths) := by
  unfold getCall byMask indexCall
  rw [if_neg (by omega), if_pos hx, if_neg (by simp), if_neg (by simp [ha]), if_neg (by simp [hr]), if_pos hlen]

/-- Two items and three flags. -/
example : getCall 2 ⟨[2], [1], 1⟩ (fun _ => 0#8) ⟨0, ⟨[3], [1], 1⟩, fun _ => 0, fun _ => 0#8⟩ .none none none = .error (.mask .lengths) := by decide +kernel

/-! ## Refusals -/

/-- C142. An index of floats is refused, unless it is empty; an index of any other type which is no number is refused even then. -/
theorem index_type_refused (t : Nat) (a : Lay) (vals : Int → Byte) (x : Ix) (d : Obj) (par1 par2 : Option (List Nat)) :
    (13 < x.type → getCall t a vals x d par1 par2 = .error .indexType) ∧
    (11 ≤ x.type → x.type ≤ 13 → refuses a = false → refuses x.lay = false →
      getCall t a vals x d par1 par2 = if x.lay.len = 0 then (if t = 17 then .error .memory else .ok []) else .error .noKernel) := by
  refine ⟨fun h => by unfold getCall; rw [if_pos h], fun h1 h2 ha hx => ?_⟩
  unfold getCall
  rw [if_neg (by omega), if_neg (by omega), if_neg (by simp [ha]), if_neg (by simp [hx])]
  by_cases hl : x.lay.len = 0
  · rw [if_pos hl, if_pos hl]
    unfold kindOf
    by_cases h17 : t = 17
    · simp [h17, outItem]
    · simp only [h17, if_false]
      split
      · simp [outItem]
      · split <;> simp [outItem]
  · rw [if_neg hl, if_neg hl]
    have : indexOf x.type = none := by
      rcases (by omega : x.type = 11 ∨ x.type = 12 ∨ x.type = 13) with h | h | h <;> rw [h] <;> rfl
    rw [this]

/-- An index of float64 and one of datetime64. -/
example : getCall 2 ⟨[2], [1], 1⟩ (fun o => BitVec.ofInt 8 o) ⟨12, ⟨[2], [8], 8⟩, fun _ => 0, fun _ => 0#8⟩ .none none none = .error .noKernel ∧
    getCall 2 ⟨[2], [1], 1⟩ (fun o => BitVec.ofInt 8 o) ⟨12, ⟨[0], [8], 8⟩, fun _ => 0, fun _ => 0#8⟩ .none none none = .ok [] ∧
    getCall 2 ⟨[2], [1], 1⟩ (fun o => BitVec.ofInt 8 o) ⟨21, ⟨[0], [8], 8⟩, fun _ => 0, fun _ => 0#8⟩ .none none none = .error .indexType := by decide +kernel

/-- C142. Objects are refused, whatever the index of integers. -/
theorem objects_refused (a : Lay) (vals : Int → Byte) (x : Ix) (d : Obj) (i : IT) (hi : ty x.type = some (.int i)) (ha : refuses a = false)
    (hx : refuses x.lay = false) (par1 par2 : Option (List Nat)) : getCall 17 a vals x d par1 par2 = .error .memory := by
  obtain ⟨h0, h13, hio, _⟩ := index_type hi
  unfold getCall
  rw [if_neg (by omega), if_neg (by omega), if_neg (by simp [ha]), if_neg (by simp [hx])]
  split
  · rfl
  · rw [hio]; rfl

/-- Two objects. -/
example : refuses ⟨[2], [8], 8⟩ = false ∧ getCall 17 ⟨[2], [8], 8⟩ (fun _ => 0#8) ⟨7, ⟨[1], [8], 8⟩, fun _ => 0, fun _ => 0#8⟩ .none none none =
    .error .memory := by decide +kernel

/-- C142. An array of which the rows are not packed is refused, as values and as an index. -/
theorem layout_refused (t : Nat) (a : Lay) (vals : Int → Byte) (x : Ix) (d : Obj) (i : IT) (hi : ty x.type = some (.int i)) (par1 par2 : Option (List Nat))
    (hr : refuses a = true ∨ refuses x.lay = true) :
    getCall t a vals x d par1 par2 = .error .valueLayout ∨ getCall t a vals x d par1 par2 = .error .indexLayout := by
  obtain ⟨h0, h13, _⟩ := index_type hi
  unfold getCall
  rw [if_neg (by omega), if_neg (by omega)]
  by_cases ha : refuses a = true
  · rw [if_pos ha]; exact .inl rfl
  · rw [if_neg ha, if_pos (hr.resolve_left ha)]; exact .inr rfl

/-- Two of the three columns. -/
example : refuses ⟨[2, 2], [24, 8], 8⟩ = true := by decide

end Riptide.Take.Call
