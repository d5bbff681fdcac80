import Verif.Take.CallProps
/-! Where the call `mbget` goes wrong (C142). -/
namespace Riptide.Take.Call
open Riptide.Binary Riptide.Work Riptide.Take Riptide.Mask.Call Riptide.Mask.Call.Spec Riptide.Take.Call.Spec

theorem typeDefault_none {t : Nat} (h : ty t = none) : typeDefault t = none := by
  unfold ty at h
  split at h <;> first
    | (simp at h; done)
    | (unfold typeDefault; split <;> first | rfl | (exfalso; simp_all))

/-- C142 fails for dates, time spans, complex numbers, half floats and records: with an index which is not empty an exception ends the process,
whatever the numbers of the index and the default. -/
theorem dates_crash {t : Nat} (a : Lay) (vals : Int → Byte) (x : Ix) (d : Obj) (i : IT) (ht : ty t = none) (ho : t ≠ 17)
    (hi : ty x.type = some (.int i)) (ha : refuses a = false) (hx : refuses x.lay = false) (hn : x.lay.len ≠ 0) (par1 par2 : Option (List Nat)) :
    getCall t a vals x d par1 par2 = .crash := by
  obtain ⟨h0, h13, hio, _⟩ := index_type hi
  have ho : (outItem (kindOf t) a.item).isNone = false := by
    unfold kindOf
    rw [if_neg ho]
    split
    · rfl
    · split <;> rfl
  unfold getCall
  rw [if_neg (by omega), if_neg (by omega), if_neg (by simp [ha]), if_neg (by simp [hx]), if_neg hn, hio]
  simp only [ho, Bool.false_eq_true, if_false, fill, typeDefault_none ht]

/-- datetime64, timedelta64, complex64, complex128, half floats, and records. -/
example : ty 21 = none ∧ ty 22 = none ∧ ty 14 = none ∧ ty 15 = none ∧ ty 23 = none ∧ ty 20 = none ∧
    getCall 21 ⟨[2], [8], 8⟩ (fun _ => 0#8) ⟨7, ⟨[1], [8], 8⟩, fun _ => 0, fun _ => 0#8⟩ .none none none = .crash :=
  ⟨rfl, rfl, rfl, rfl, rfl, rfl, rfl⟩

/-- An index selects nothing. -/
def Outside (len : Nat) (v : Int) : Prop := v < -(len : Int) ∨ (len : Int) ≤ v

theorem resolve_outside {i : IT} {isVar : Bool} {len : Nat} {v : Int} (hb : 0 < i.bits) (hr : i.InRange v)
    (hg : i.signed = true ∨ isVar = false) (ho : Outside len v) : resolve i.signed isVar len (readIdx i.bits v) = none := by
  unfold IT.InRange IT.lo IT.hi at hr
  unfold Outside at ho
  unfold resolve
  by_cases hs : i.signed = true
  · simp only [hs, if_true] at hr ⊢
    rw [readIdx_eq hb (by omega) (by omega), if_neg (by omega)]
  · simp only [hs, Bool.false_eq_true, if_false] at hr ⊢
    have hv : isVar = false := by rcases hg with h | h
                                  · exact absurd h hs
                                  · exact h
    subst hv
    simp only [Bool.false_eq_true, if_false]
    by_cases h1 : v < 2 ^ (i.bits - 1)
    · rw [readIdx_eq hb (by omega) h1, if_neg (by omega)]
    · have := readIdx_neg hb (by omega) (v := v) (by omega)
      rw [if_neg (by omega)]

/-- The kernel reads a byte of the default which must not be read. -/
theorem gather_undefined {a : Lay} {vals : Int → Byte} {x : Ix} {i : IT} {f : Nat → Option Byte} {lv lx : List Int} {sv sx : Int}
    (ha : Listed a lv sv) (hx : Listed x.lay lx sx) (hf : ∃ k, k < a.item ∧ f k = none)
    (hb : 0 < i.bits) (hin : ∀ o ∈ lx, i.InRange (x.num o)) (ho : ∃ o ∈ lx, Outside a.len (x.num o))
    (hg : i.signed = true ∨ fixedSize a.item = true)
    {workers : Nat} {nt : Bool} {par : Option (List Nat)} (hp : ChunkSched workers x.lay.len nt par)
    (hc : x.lay.len < big ∨ nt = true ∨ (sv = a.item ∧ (1 < a.len ∨ a.dims.length ≤ 1))) :
    gather a vals x (i.signed, i.bits) f par = .undefined := by
  obtain ⟨_, sa⟩ := ha.walk
  obtain ⟨_, sxx⟩ := hx.walk
  have hnum : numbers x = lx.map x.num := read_even x.num sxx hx.even hx.length
  have hlen : (numbers x).length = x.lay.len := by unfold numbers; simp
  have hc' : (Index.mk i.signed i.bits (numbers x)).vals.length < big ∨ nt = true ∨ step a = a.item := by
    simp only [hlen]
    rcases hc with h | h | ⟨h1, h2⟩
    · exact .inl h
    · exact .inr (.inl h)
    · refine .inr (.inr ?_)
      rcases Nat.lt_or_ge 1 a.len with h3 | h3
      · rw [sa h3, h1]
      · rcases h2 with h2 | h2
        · omega
        · exact step_one h2 h3
  have hp' : ChunkSched workers (Index.mk i.signed i.bits (numbers x)).vals.length nt par := by simpa only [hlen] using hp
  obtain ⟨copies, hm, hperm⟩ := mbget_perm (Index.mk i.signed i.bits (numbers x)) a.len (step a) a.item (x.lay.len + 1) hg hp' hc'
  unfold gather
  simp only [hm]
  unfold run
  rw [if_pos]
  obtain ⟨k, hk, hfk⟩ := hf
  obtain ⟨o, hol, hout⟩ := ho
  obtain ⟨r, hr, hro⟩ := List.getElem_of_mem hol
  rw [List.any_eq_true]
  have hrl : r < (numbers x).length := by rw [hlen, ← hx.length]; exact hr
  have hget : (numbers x)[r]? = some (x.num o) := by
    rw [hnum, List.getElem?_map, List.getElem?_eq_getElem hr, hro]; rfl
  have hres := resolve_outside (isVar := !fixedSize a.item) hb (hin o hol) (hg.imp id fun h => by simp [h]) hout
  refine ⟨((r : Int) * a.item + k, .dflt k), hperm.mem_iff.2 ?_, ?_⟩
  · simp only [rowCopies, List.mem_flatMap, List.mem_range, itemCopy, List.mem_map, itemOffs_eq]
    refine ⟨r, hrl, k, hk, ?_⟩
    rw [hget]
    simp only [Option.getD_some, hres]
  · simp [badDefault, hfk]

theorem get_undefined {t : Nat} {a : Lay} {vals : Int → Byte} {x : Ix} {d : Obj} {y : Ty} {i : IT} {f : Nat → Option Byte}
    {lv lx : List Int} {sv sx : Int} (ht : ty t = some y) (hf : fill t d = .bytes f) (hfk : ∃ k, k < a.item ∧ f k = none)
    (ha : Listed a lv sv) (hx : Listed x.lay lx sx) (hi : ty x.type = some (.int i)) (hin : ∀ o ∈ lx, i.InRange (x.num o))
    (ho : ∃ o ∈ lx, Outside a.len (x.num o)) (hg : i.signed = true ∨ a.item ∈ [1, 2, 4, 8, 16])
    {workers : Nat} {nt : Bool} {par : Option (List Nat)} (hp : ChunkSched workers x.lay.len nt par)
    (hc : x.lay.len < big ∨ nt = true ∨ (sv = a.item ∧ (1 < a.len ∨ a.dims.length ≤ 1))) (par2 : Option (List Nat)) :
    getCall t a vals x d par par2 = .undefined := by
  obtain ⟨h0, h13, hio, hb⟩ := index_type hi
  have hl : x.lay.len ≠ 0 := by
    obtain ⟨o, hol, _⟩ := ho
    rw [← hx.length]
    exact Nat.ne_of_gt (List.length_pos_of_mem hol)
  unfold getCall
  rw [if_neg (by omega), if_neg (by omega), if_neg (by simp [ha.walk.1]), if_neg (by simp [hx.walk.1]), if_neg hl, hio]
  simp only [kind_ok ht, Bool.false_eq_true, if_false, hf]
  refine gather_undefined ha hx hfk hb hin ho (hg.imp id fun h => ?_) hp hc
  simp only [List.mem_cons, List.not_mem_nil, or_false] at h
  simp [fixedSize]
  omega

/-- C142 fails for a default which is a text: `pDefault` is set to memory which was never written, so that an index out of range reads it, for values
of every type, texts included. -/
theorem text_default_undefined {t : Nat} {a : Lay} {vals : Int → Byte} {x : Ix} {y : Ty} {i : IT}
    {lv lx : List Int} {sv sx : Int} (ht : ty t = some y) (hitem : 0 < a.item)
    (ha : Listed a lv sv) (hx : Listed x.lay lx sx) (hi : ty x.type = some (.int i)) (hin : ∀ o ∈ lx, i.InRange (x.num o))
    (ho : ∃ o ∈ lx, Outside a.len (x.num o)) (hg : i.signed = true ∨ a.item ∈ [1, 2, 4, 8, 16])
    {workers : Nat} {nt : Bool} {par : Option (List Nat)} (hp : ChunkSched workers x.lay.len nt par)
    (hc : x.lay.len < big ∨ nt = true ∨ (sv = a.item ∧ (1 < a.len ∨ a.dims.length ≤ 1))) (par2 : Option (List Nat)) :
    getCall t a vals x .text par par2 = .undefined := by
  refine get_undefined (f := fun _ => none) ht ?_ ⟨0, hitem, rfl⟩ ha hx hi hin ho hg hp hc par2
  rcases ty_cases ht with h | h | h | h | h | h | h | h | h | h | h | h | h | h | h | h <;> subst h <;> rfl

/-- Texts of three bytes, the index 5 of two, and the default "abc". -/
example : getCall 18 ⟨[2], [3], 3⟩ (fun _ => 65#8) ⟨7, ⟨[1], [8], 8⟩, fun _ => 5, fun _ => 0#8⟩ .text none none = .undefined ∧ Outside 2 5 :=
  ⟨by decide +kernel, .inr (by decide)⟩

/-- C142 fails for texts of more than 1024 bytes: the default of the type has 1024 bytes, so that an index out of range reads beyond it. -/
theorem long_texts_undefined {t : Nat} {a : Lay} {vals : Int → Byte} {x : Ix} {i : IT}
    {lv lx : List Int} {sv sx : Int} (ht : t = 18 ∨ t = 19) (hitem : 1024 < a.item)
    (ha : Listed a lv sv) (hx : Listed x.lay lx sx) (hi : ty x.type = some (.int i)) (hin : ∀ o ∈ lx, i.InRange (x.num o))
    (ho : ∃ o ∈ lx, Outside a.len (x.num o)) (hg : i.signed = true)
    {workers : Nat} {nt : Bool} {par : Option (List Nat)} (hp : ChunkSched workers x.lay.len nt par)
    (hc : x.lay.len < big ∨ nt = true ∨ (sv = a.item ∧ (1 < a.len ∨ a.dims.length ≤ 1))) (par2 : Option (List Nat)) :
    getCall t a vals x .none par par2 = .undefined := by
  refine get_undefined (y := .text) (f := fun k => (List.replicate 1024 0#8)[k]?) ?_ ?_ ⟨1024, hitem, List.getElem?_eq_none (by rw [List.length_replicate]; exact Nat.le_refl _)⟩ ha hx hi hin ho (.inl hg) hp hc par2
  · rcases ht with rfl | rfl <;> rfl
  · rcases ht with rfl | rfl <;> rfl

/-- A text of 300 characters. -/
example : Listed ⟨[1], [1200], 1200⟩ ((List.range 1).map fun (k : Nat) => (k : Int) * 1200) 1200 := listed_one 1 1200 1200

theorem outside_i64 {v : Int} (h : v < -2 ^ 63 ∨ 2 ^ 63 ≤ v) : fitsI64 v = false := by simp [fitsI64]; omega

/-- C142 fails for a Python `int` beyond 64 bits as the default of float64: it becomes -1. -/
theorem large_default_wrong {a : Lay} {vals : Int → Byte} {x : Ix} {v : Int} {i : IT} {lv lx : List Int} {sv sx : Int}
    (hv : v < -2 ^ 63 ∨ 2 ^ 63 ≤ v) (hitem : a.item = 8)
    (ha : Listed a lv sv) (hx : Listed x.lay lx sx) (hi : ty x.type = some (.int i)) (hin : ∀ o ∈ lx, i.InRange (x.num o)) (hg : i.signed = true)
    {workers : Nat} {nt : Bool} {par : Option (List Nat)} (hp : ChunkSched workers x.lay.len nt par)
    (hc : x.lay.len < big ∨ nt = true ∨ (sv = a.item ∧ (1 < a.len ∨ a.dims.length ≤ 1))) (par2 : Option (List Nat)) :
    getCall 12 a vals x (.int v) par par2 =
      .ok ((lx.flatMap fun o => Take.Spec.get (lv.map (itemAt vals a.item)) (enc 8 (FT.f64.ofInt (-1))) (x.num o)).map some) := by
  refine get_with (y := .flt .f64) (f := fun k => (le 8 (FT.f64.ofInt (-1)))[k]?) rfl ?_ (fun k _ => by rw [le_eq]) (by rw [enc_length, hitem])
    ha hx hi hin (.inl hg) hp hc par2
  simp only [fill, typeDefault, convert, outside_i64 hv, putInt, Bool.false_eq_true, if_false]

/-- 2^70 as the default: the answer is -1.0. -/
example : getCall 12 ⟨[2], [8], 8⟩ (fun _ => 0#8) ⟨7, ⟨[1], [8], 8⟩, fun _ => 5, fun _ => 0#8⟩ (.int (2 ^ 70)) none none =
    .ok ([0#8, 0#8, 0#8, 0#8, 0#8, 0#8, 0xF0#8, 0xBF#8].map some) ∧
    ofNumber (2 ^ 70) (.flt .f64) = some [0#8, 0#8, 0#8, 0#8, 0#8, 0#8, 0x50#8, 0x44#8] := by decide +kernel

/-- C142 fails for numpy's uint64 from 2^63 as the default of floats: it becomes negative. -/
theorem numpy_default_wrong {a : Lay} {vals : Int → Byte} {x : Ix} {v : Int} {i : IT} {lv lx : List Int} {sv sx : Int}
    (hv : 2 ^ 63 ≤ v ∧ v < 2 ^ 64) (hitem : a.item = 8)
    (ha : Listed a lv sv) (hx : Listed x.lay lx sx) (hi : ty x.type = some (.int i)) (hin : ∀ o ∈ lx, i.InRange (x.num o)) (hg : i.signed = true)
    {workers : Nat} {nt : Bool} {par : Option (List Nat)} (hp : ChunkSched workers x.lay.len nt par)
    (hc : x.lay.len < big ∨ nt = true ∨ (sv = a.item ∧ (1 < a.len ∨ a.dims.length ≤ 1))) (par2 : Option (List Nat)) :
    getCall 12 a vals x (.npInt v) par par2 =
      .ok ((lx.flatMap fun o => Take.Spec.get (lv.map (itemAt vals a.item)) (enc 8 (FT.f64.ofInt (v - 2 ^ 64))) (x.num o)).map some) := by
  refine get_with (y := .flt .f64) (f := fun k => (le 8 (FT.f64.ofInt (v - 2 ^ 64)))[k]?) rfl ?_ (fun k _ => by rw [le_eq])
    (by rw [enc_length, hitem]) ha hx hi hin (.inl hg) hp hc par2
  have e : Int.bmod v (2 ^ 64) = v - 2 ^ 64 := by
    rw [Int.bmod_def]
    split <;> omega
  simp only [fill, typeDefault, convert, e, putInt]

/-- np.uint64(2**63) as the default: the answer is -2^63. -/
example : getCall 12 ⟨[2], [8], 8⟩ (fun _ => 0#8) ⟨7, ⟨[1], [8], 8⟩, fun _ => 5, fun _ => 0#8⟩ (.npInt (2 ^ 63)) none none =
    .ok ([0#8, 0#8, 0#8, 0#8, 0#8, 0#8, 0xE0#8, 0xC3#8].map some) := by decide +kernel

/-- C142 fails for floats as the default of the long double: two float64 are stored, which stand for no such number. -/
theorem long_double_default_wrong {a : Lay} {vals : Int → Byte} {x : Ix} {b : Nat} {i : IT} {lv lx : List Int} {sv sx : Int} (hitem : a.item = 16)
    (ha : Listed a lv sv) (hx : Listed x.lay lx sx) (hi : ty x.type = some (.int i)) (hin : ∀ o ∈ lx, i.InRange (x.num o)) (hg : i.signed = true)
    {workers : Nat} {nt : Bool} {par : Option (List Nat)} (hp : ChunkSched workers x.lay.len nt par)
    (hc : x.lay.len < big ∨ nt = true ∨ (sv = a.item ∧ (1 < a.len ∨ a.dims.length ≤ 1))) (par2 : Option (List Nat)) :
    getCall 13 a vals x (.float b) par par2 =
      .ok ((lx.flatMap fun o => Take.Spec.get (lv.map (itemAt vals a.item)) (enc 8 b ++ enc 8 b) (x.num o)).map some) :=
  get_with (y := .long) (f := fun k => (le 8 (b : Int) ++ le 8 (b : Int))[k]?) rfl rfl (fun k _ => by rw [le_eq])
    (by rw [List.length_append, enc_length, hitem]) ha hx hi hin (.inl hg) hp hc par2

/-- 1.0 (which is 0x3FFF 8000000000000000) becomes 0x0000 3FF0000000000000, a tiny number. -/
example : getCall 13 ⟨[2], [16], 16⟩ (fun _ => 0#8) ⟨7, ⟨[1], [8], 8⟩, fun _ => 5, fun _ => 0#8⟩ (.float 0x3FF0000000000000) none none =
    .ok ((enc 8 0x3FF0000000000000 ++ [0#8, 0#8, 0#8, 0#8, 0#8, 0#8, 0xF0#8, 0x3F#8]).map some) ∧
    enc 8 0x3FF0000000000000 ++ [0#8, 0#8] ≠ enc 10 0x3FFF8000000000000000 := by decide +kernel

/-- C142. Integers as the default of bools: the low byte is stored, so that 2 gives a bool which is neither 0 nor 1, and 256 gives False. -/
theorem bool_default_wrong {a : Lay} {vals : Int → Byte} {x : Ix} {v : Int} {i : IT} {lv lx : List Int} {sv sx : Int}
    (hv : -2 ^ 63 ≤ v ∧ v < 2 ^ 63) (hitem : a.item = 1)
    (ha : Listed a lv sv) (hx : Listed x.lay lx sx) (hi : ty x.type = some (.int i)) (hin : ∀ o ∈ lx, i.InRange (x.num o)) (hg : i.signed = true)
    {workers : Nat} {nt : Bool} {par : Option (List Nat)} (hp : ChunkSched workers x.lay.len nt par)
    (hc : x.lay.len < big ∨ nt = true ∨ (sv = a.item ∧ (1 < a.len ∨ a.dims.length ≤ 1))) (par2 : Option (List Nat)) :
    getCall 0 a vals x (.int v) par par2 =
      .ok ((lx.flatMap fun o => Take.Spec.get (lv.map (itemAt vals a.item)) [BitVec.ofInt 8 v] (x.num o)).map some) := by
  have hf : fitsI64 v = true := by simp [fitsI64]; omega
  refine get_with (y := .bool) (f := fun k => (le 1 v)[k]?) rfl ?_ (fun k _ => by rw [le_eq]; rfl) (by rw [hitem]; rfl) ha hx hi hin (.inl hg) hp hc par2
  simp only [fill, typeDefault, convert, hf, putInt, if_true, size]

/-- The defaults 2 and 256. -/
example : getCall 0 ⟨[2], [1], 1⟩ (fun _ => 0#8) ⟨7, ⟨[1], [8], 8⟩, fun _ => 5, fun _ => 0#8⟩ (.int 2) none none = .ok [some 2#8] ∧
    getCall 0 ⟨[2], [1], 1⟩ (fun _ => 0#8) ⟨7, ⟨[1], [8], 8⟩, fun _ => 5, fun _ => 0#8⟩ (.int 256) none none = .ok [some 0#8] := by decide +kernel

theorem enc_add : ∀ (n m : Nat) (u q : Int), n ≤ m → enc n (u + 256 ^ m * q) = enc n u
  | 0, _, _, _, _ => rfl
  | n + 1, 0, _, _, h => absurd h (by omega)
  | n + 1, m + 1, u, q, h => by
    have e : (256 : Int) ^ (m + 1) * q = 256 * (256 ^ m * q) := by rw [Int.pow_succ, Int.mul_comm (256 ^ m) 256, Int.mul_assoc]
    rw [enc, enc, e, Int.add_mul_ediv_left _ _ (by decide), enc_add n m (u / 256) q (by omega)]
    congr 1
    apply BitVec.eq_of_toInt_eq
    generalize (256 : Int) ^ m * q = z
    rw [BitVec.toInt_ofInt, BitVec.toInt_ofInt, Int.bmod_def, Int.bmod_def]
    split <;> split <;> omega

/-- C142. A Python `int` of 64 bits which the integer type of the values cannot hold is not refused: its low bytes are stored. -/
theorem default_wraps {t : Nat} {a : Lay} {vals : Int → Byte} {x : Ix} {v : Int} {i j : IT} {lv lx : List Int} {sv sx : Int}
    (ht : ty t = some (.int j)) (hv : -2 ^ 63 ≤ v ∧ v < 2 ^ 63) (hitem : a.item = j.bits / 8)
    (ha : Listed a lv sv) (hx : Listed x.lay lx sx) (hi : ty x.type = some (.int i)) (hin : ∀ o ∈ lx, i.InRange (x.num o)) (hg : i.signed = true)
    {workers : Nat} {nt : Bool} {par : Option (List Nat)} (hp : ChunkSched workers x.lay.len nt par)
    (hc : x.lay.len < big ∨ nt = true ∨ (sv = a.item ∧ (1 < a.len ∨ a.dims.length ≤ 1))) (par2 : Option (List Nat)) :
    getCall t a vals x (.int v) par par2 =
      .ok ((lx.flatMap fun o => Take.Spec.get (lv.map (itemAt vals a.item)) (enc (j.bits / 8) (v % 2 ^ 64)) (x.num o)).map some) := by
  have hf : fitsI64 v = true := by simp [fitsI64]; omega
  have hmod : ∀ n : Nat, n ≤ 8 → enc n v = enc n (v % 2 ^ 64) := by
    intro n hn
    rcases (by omega : v % 2 ^ 64 = v + 256 ^ 8 * 0 ∨ v % 2 ^ 64 = v + 256 ^ 8 * 1) with h | h <;> rw [h, enc_add n 8 _ _ hn]
  have key : ∃ f, fill t (.int v) = .bytes f ∧ ∀ k, f k = (enc (j.bits / 8) (v % 2 ^ 64))[k]? := by
    have : ∃ e, typeDefault t = some e := by
      rcases ty_cases ht with h | h | h | h | h | h | h | h | h | h | h | h | h | h | h | h <;> subst h <;> exact ⟨_, rfl⟩
    obtain ⟨e, he⟩ := this
    have h8 : j.bits / 8 ≤ 8 := by
      rcases int_cases ht with ⟨_, hb, _⟩ | ⟨_, hb, _⟩ <;> omega
    rcases int_cases ht with ⟨_, _, _, hz, _, _, hpt⟩ | ⟨_, _, _, hz, _, _, hpt⟩
    · refine ⟨fun k => (le (size t) v)[k]?, ?_, fun k => ?_⟩
      · simp only [fill, he, convert, hpt, hf, if_true]
      · rw [le_eq, hz, hmod _ h8]
    · refine ⟨fun k => (le (size t) (v % 2 ^ 64))[k]?, ?_, fun k => ?_⟩
      · simp only [fill, he, convert, hpt, hf, if_true]
        split
        · rfl
        · simp only [le_eq, hz, ← hmod _ h8]
      · rw [le_eq, hz]
  obtain ⟨f, h1, h2⟩ := key
  exact get_with ht h1 (fun k _ => h2 k) (by rw [enc_length, hitem]) ha hx hi hin (.inl hg) hp hc par2

/-- 300 as the default of uint8 gives 44. -/
example : getCall 2 ⟨[2], [1], 1⟩ (fun _ => 0#8) ⟨7, ⟨[1], [8], 8⟩, fun _ => 5, fun _ => 0#8⟩ (.int 300) none none = .ok [some 44#8] := by decide +kernel

/-- C142 fails for a float which the integer type of the values (or bool) cannot hold, NaN among them: the cast is undefined, even if every index
is in range. -/
theorem nan_default_undefined {t : Nat} (a : Lay) (vals : Int → Byte) (x : Ix) (b : Nat) (i j : IT) (ht : ty t = some (.int j) ∨ (t = 0 ∧ j = .i8))
    (hb : FT.f64.toInt j b = none) (hi : ty x.type = some (.int i)) (ha : refuses a = false) (hx : refuses x.lay = false) (hn : x.lay.len ≠ 0)
    (par1 par2 : Option (List Nat)) : getCall t a vals x (.float b) par1 par2 = .undefined := by
  obtain ⟨h0, h13, hio, _⟩ := index_type hi
  have hj : intOf t = some j := by
    rcases ht with ht | ⟨rfl, rfl⟩
    · rcases int_cases ht with ⟨_, _, _, _, h, _⟩ | ⟨_, _, _, _, h, _⟩ <;> exact h
    · rfl
  have hy : ∃ y, ty t = some y := by
    rcases ht with ht | ⟨rfl, rfl⟩
    · exact ⟨_, ht⟩
    · exact ⟨_, rfl⟩
  obtain ⟨y, hy⟩ := hy
  have : ∃ e, typeDefault t = some e := by
    rcases ty_cases hy with h | h | h | h | h | h | h | h | h | h | h | h | h | h | h | h <;> subst h <;> exact ⟨_, rfl⟩
  obtain ⟨e, he⟩ := this
  unfold getCall
  rw [if_neg (by omega), if_neg (by omega), if_neg (by simp [ha]), if_neg (by simp [hx]), if_neg hn, hio]
  simp only [kind_ok hy, Bool.false_eq_true, if_false, fill, he, convert, putFloat, hj, hb]

/-- NaN as the default of int32, and 300.0 as the default of uint8. -/
example : FT.f64.toInt .i32 FT.f64.qnan = none ∧ FT.f64.toInt .u8 0x4072C00000000000 = none ∧
    getCall 5 ⟨[2], [4], 4⟩ (fun _ => 0#8) ⟨7, ⟨[1], [8], 8⟩, fun _ => 0, fun _ => 0#8⟩ (.float FT.f64.qnan) none none = .undefined := by decide +kernel

/-- C142. Defaults which are silently ignored: numbers for texts, integers and bools for the long double, and for all types those which are no number
and no text. -/
theorem default_ignored (t : Nat) (a : Lay) (vals : Int → Byte) (x : Ix) (par1 par2 : Option (List Nat)) :
    getCall t a vals x .other par1 par2 = getCall t a vals x .none par1 par2 ∧
    (t = 18 ∨ t = 19 → ∀ d, d ≠ .text → getCall t a vals x d par1 par2 = getCall t a vals x .none par1 par2) ∧
    (t = 13 → ∀ d, (∃ b, d = .bool b) ∨ (∃ v, d = .int v) ∨ (∃ v, d = .npInt v) → getCall t a vals x d par1 par2 = getCall t a vals x .none par1 par2) := by
  have key : ∀ d, fill t d = fill t .none → getCall t a vals x d par1 par2 = getCall t a vals x .none par1 par2 := by
    intro d h
    unfold getCall
    rw [h]
  refine ⟨key _ rfl, ?_, ?_⟩
  · rintro (rfl | rfl) d hd <;> apply key <;> cases d <;> first
      | rfl
      | exact absurd rfl hd
  · rintro rfl d (⟨b, rfl⟩ | ⟨b, rfl⟩ | ⟨b, rfl⟩) <;> exact key _ rfl

/-- The default 5 for texts gives the empty text. -/
example : getCall 18 ⟨[2], [3], 3⟩ (fun _ => 65#8) ⟨7, ⟨[1], [8], 8⟩, fun _ => 5, fun _ => 0#8⟩ (.int 5) none none = .ok [some 0#8, some 0#8, some 0#8] := by
  decide +kernel

/-- C142 fails for texts (unless of 1, 2, 4, 8 or 16 bytes) with an index without a sign and of an odd number of items: the loop never meets its end. -/
theorem unsigned_index_texts_undefined {t : Nat} (a : Lay) (vals : Int → Byte) (x : Ix) (d : Obj) (i : IT) {y : Ty} (ht : ty t = some y)
    (hd : d = .none) (hi : ty x.type = some (.int i)) (hs : i.signed = false) (hf : a.item ∉ [1, 2, 4, 8, 16]) (hitem : 0 < a.item)
    (hodd : x.lay.len % 2 = 1) (ha : refuses a = false) (hx : refuses x.lay = false) (par2 : Option (List Nat)) :
    getCall t a vals x d none par2 = .undefined := by
  subst hd
  obtain ⟨h0, h13, hio, _⟩ := index_type hi
  have : ∃ e, typeDefault t = some e := by
    rcases ty_cases ht with h | h | h | h | h | h | h | h | h | h | h | h | h | h | h | h <;> subst h <;> exact ⟨_, rfl⟩
  obtain ⟨e, he⟩ := this
  unfold getCall
  rw [if_neg (by omega), if_neg (by omega), if_neg (by simp [ha]), if_neg (by simp [hx]), if_neg (by omega), hio]
  simp only [kind_ok ht, Bool.false_eq_true, if_false, fill, he, convert]
  unfold gather
  rw [unsigned_index_variable_item_never_terminates]
  · exact hs
  · simp only [List.mem_cons, List.not_mem_nil, or_false] at hf
    simp [fixedSize]
    omega
  · exact hitem
  · simpa [numbers] using hodd

/-- One text of three bytes, taken by one uint8. -/
example : getCall 18 ⟨[1], [3], 3⟩ (fun _ => 65#8) ⟨2, ⟨[1], [1], 1⟩, fun _ => 0, fun _ => 0#8⟩ .none none none = .undefined := by decide +kernel

/-- C142 fails for values in Fortran order: the numbers of the index count the items in the order of the memory. The item 1 of [[0, 1], [2, 3]] is 2. -/
theorem fortran_order_wrong :
    getCall 2 ⟨[2, 2], [1, 2], 1⟩ (fun o => if o = 0 then 0#8 else if o = 1 then 2#8 else if o = 2 then 1#8 else 3#8)
      ⟨7, ⟨[1], [8], 8⟩, fun _ => 1, fun _ => 0#8⟩ .none none none = .ok [some 2#8] ∧
    (inC [2, 2] [1, 2]).map (fun o => if o = 0 then 0 else if o = 1 then 2 else if o = 2 then 1 else 3) = [0, 1, 2, 3] := by decide +kernel

end Riptide.Take.Call
