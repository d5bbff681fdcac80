import Verif.Unary.CallLemmas
/-! What the calls for operations on one array answer (C157). -/
namespace Riptide.Unary.Call
open Riptide.Nums Riptide.Binary Riptide.Work
open Riptide.Convert.Call.Spec (whole real size)
open Riptide.Unary.Call.Spec

theorem pick {c : Prop} [Decidable c] {a op : Op} {r : Option Op} (h : (if c then some a else r) = some op) : (c ∧ op = a) ∨ r = some op := by
  split at h
  · next hc => exact .inl ⟨hc, (Option.some.inj h).symm⟩
  · exact .inr h

/-- The numbers of the operations with a kernel. -/
theorem op_iff (k : Int) (op : Op) : opOf k = some op ↔ (k, op) ∈ codes := by
  constructor
  · intro h
    unfold opOf at h
    iterate 27
      rcases pick h with ⟨rfl, rfl⟩ | h
      · decide
    exact absurd h (by simp)
  · intro h
    simp only [codes, List.mem_cons, Prod.mk.injEq, List.not_mem_nil, or_false] at h
    rcases h with ⟨rfl, rfl⟩ | ⟨rfl, rfl⟩ | ⟨rfl, rfl⟩ | ⟨rfl, rfl⟩ | ⟨rfl, rfl⟩ | ⟨rfl, rfl⟩ | ⟨rfl, rfl⟩ | ⟨rfl, rfl⟩ | ⟨rfl, rfl⟩ | ⟨rfl, rfl⟩ | ⟨rfl, rfl⟩ |
      ⟨rfl, rfl⟩ | ⟨rfl, rfl⟩ | ⟨rfl, rfl⟩ | ⟨rfl, rfl⟩ | ⟨rfl, rfl⟩ | ⟨rfl, rfl⟩ | ⟨rfl, rfl⟩ | ⟨rfl, rfl⟩ | ⟨rfl, rfl⟩ | ⟨rfl, rfl⟩ | ⟨rfl, rfl⟩ | ⟨rfl, rfl⟩ |
      ⟨rfl, rfl⟩ | ⟨rfl, rfl⟩ | ⟨rfl, rfl⟩ | ⟨rfl, rfl⟩ <;> decide

theorem kind_out {op : Op} {ty : Nat} (hk : Known op ty) : Kind op ty (outOf op ty) := by
  cases op <;> first | rfl | skip
  show if 11 ≤ ty ∧ ty ≤ 13 then outOf _ ty = ty else outOf _ ty = 12
  unfold outOf
  dsimp only
  split
  · next h =>
    by_cases h1 : ty = 11
    · rw [if_pos h1, h1]
    · rw [if_neg h1]
      by_cases h2 : ty = 13
      · rw [if_pos h2, h2]
      · rw [if_neg h2]; omega
  · next h => rw [if_neg (by omega), if_neg (by omega)]

theorem item_pos {ty : Nat} (h : ty ≤ 13) : 0 < itemOf ty := by
  have : ty ∈ List.range 14 := List.mem_range.mpr (by omega)
  revert ty
  intro ty _ hm
  simp only [List.range, List.range.loop, List.mem_cons, List.not_mem_nil, or_false] at hm
  rcases hm with rfl | rfl | rfl | rfl | rfl | rfl | rfl | rfl | rfl | rfl | rfl | rfl | rfl | rfl <;> decide

/-- The size of an item of each type. -/
theorem item_size {ty : Nat} (h : ty ≤ 13) : itemOf ty = size ty := by
  have hm : ty ∈ List.range 14 := List.mem_range.mpr (by omega)
  simp only [List.range, List.range.loop, List.mem_cons, List.not_mem_nil, or_false] at hm
  rcases hm with rfl | rfl | rfl | rfl | rfl | rfl | rfl | rfl | rfl | rfl | rfl | rfl | rfl | rfl <;> decide

theorem out_small {op : Op} {ty : Nat} (hk : Known op ty) : outOf op ty ≤ 13 := by
  rcases op with _ | _ | _ | _ | _ | o | g | t
  iterate 6 (have h := hk; unfold Known at h; dsimp only at h; show ty ≤ 13; omega)
  · show (if ty = 11 then 11 else if ty = 13 then 13 else 12) ≤ 13
    split
    · omega
    · split <;> omega
  · exact Nat.zero_le _

/-- A new array is made and filled where the walk over the items is right. -/
theorem fresh_walk {lib : Lib} {op : Op} {a : Arr} {m : Nums.Mem} (hk : Known op a.type) {l : List (Int × Int)} (hp : planNew a.lay (itemOf (outOf op a.type)) = some l)
    (hF : Faithful a.lay (newOut a.lay (itemOf (outOf op a.type))) l)
    {xs : List Nat → Int} (hx : ∀ idx, InBounds idx a.lay.dims → Item a.type m (offs idx a.lay.strides) (xs idx))
    (hf : ∀ idx, InBounds idx a.lay.dims → Fine op a.type (xs idx)) (wide : Nat → Bool) {workers : Nat} {nt : Bool} {par : Option (List Nat)}
    (hs : ChunkSched workers a.lay.len nt par) {k : Int} (hc : (k, op) ∈ codes) :
    ∃ ws, fresh lib true wide par a m k = .fresh (outOf op a.type) (newOut a.lay (itemOf (outOf op a.type))) ws ∧
      Right lib op a xs (newOut a.lay (itemOf (outOf op a.type))) ws := by
  obtain ⟨call, hcall⟩ := Option.isSome_iff_exists.mp ((kernel_known lib op a.type).mpr hk)
  obtain ⟨ys, e, hr⟩ := walk_right hcall hF (planNew_length hp) hx hf wide hs
  refine ⟨_, ?_, hr⟩
  unfold fresh
  rw [(op_iff k op).mpr hc]
  simp only [hcall, hp, e]
  rfl

/-- The call with the array alone, whether in a tuple or not, and the other call with any `dtype` and any array as `out`: all are the same, for numbers of 64 bits. -/
theorem calls_same (lib : Lib) (room : Bool) (wide : Nat → Bool) (par : Option (List Nat)) (a : Arr) (m : Nums.Mem) {k ty : Int}
    (hk : -(2 ^ 63) ≤ k ∧ k < 2 ^ 63) (ht : -(2 ^ 63) ≤ ty ∧ ty < 2 ^ 63) {dtype : Option Bool} (hd : dtype ≠ some false) {out : Option Obj} (ho : out ≠ some .other) :
    oneInput lib room wide par (.bare (.array a m)) k ty = fresh lib room wide par a m (IT.i32.wrap k) ∧
    oneInput lib room wide par (.tuple [.array a m]) k ty = fresh lib room wide par a m (IT.i32.wrap k) ∧
    unaryOp lib room wide par dtype out (some (.array a m, some k)) = fresh lib room wide par a m (IT.i32.wrap k) := by
  have h1 : fits k = true := decide_eq_true (by omega)
  have h2 : fits ty = true := decide_eq_true (by omega)
  refine ⟨?_, ?_, ?_⟩
  · unfold oneInput; rw [h1, h2]; rfl
  · unfold oneInput; rw [h1, h2]; rfl
  · unfold unaryOp
    rw [if_neg hd]
    rcases out with _ | _ | _
    · simp only; rw [h1]; rfl
    · simp only; rw [h1]; rfl
    · exact absurd rfl ho

/-- The number of an operation comes through. -/
theorem code_wrap {k : Int} {op : Op} (h : (k, op) ∈ codes) : IT.i32.wrap k = k ∧ -(2 ^ 63) ≤ k ∧ k < 2 ^ 63 := by
  have hb : 0 ≤ k ∧ k < 1000 := by
    simp only [codes, List.mem_cons, Prod.mk.injEq, List.not_mem_nil, or_false] at h
    omega
  refine ⟨IT.wrap_of_inRange _ (by decide) ⟨?_, ?_⟩, by omega, by omega⟩
  · show -(2 : Int) ^ 31 ≤ k; omega
  · show k ≤ (2 : Int) ^ 31 - 1; omega

/-- An array of at most one dimension, with any distance between its items, of native byte order: the answer is a new array of one dimension with the answer for each item, for
any length, alignment and work of the threads. -/
theorem line_partial {lib : Lib} {op : Op} {a : Arr} {m : Nums.Mem} (hk : Known op a.type) (hw : a.lay.strides.length = a.lay.dims.length) (hd : a.lay.dims.length ≤ 1)
    (hi : 0 < a.lay.item)
    {xs : List Nat → Int} (hx : ∀ idx, InBounds idx a.lay.dims → Item a.type m (offs idx a.lay.strides) (xs idx))
    (hf : ∀ idx, InBounds idx a.lay.dims → Fine op a.type (xs idx)) (wide : Nat → Bool) {workers : Nat} {nt : Bool} {par : Option (List Nat)}
    (hs : ChunkSched workers a.lay.len nt par) {k ty : Int} (hc : (k, op) ∈ codes) (ht : -(2 ^ 63) ≤ ty ∧ ty < 2 ^ 63) :
    ∃ out ws, oneInput lib true wide par (.bare (.array a m)) k ty = .fresh out ⟨[a.lay.len], [(size out : Int)], size out⟩ ws ∧ Kind op a.type out ∧
      Right lib op a xs ⟨[a.lay.len], [(size out : Int)], size out⟩ ws := by
  have hno : newOut a.lay (itemOf (outOf op a.type)) = ⟨[a.lay.len], [(size (outOf op a.type) : Int)], size (outOf op a.type)⟩ := by
    rw [← item_size (out_small hk)]; unfold newOut; rw [if_pos hd]
  have hcon : contig a.lay = (0, headStride a.lay) := by unfold contig; rw [if_pos hd]
  have hp : planNew a.lay (itemOf (outOf op a.type)) = some (straight a.lay.len (headStride a.lay) (itemOf (outOf op a.type))) := by
    unfold planNew; rw [hcon]; rfl
  obtain ⟨h1, h2, h3⟩ := code_wrap hc
  rw [(calls_same lib true wide par a m (k := k) (ty := ty) ⟨h2, h3⟩ ht (dtype := none) (by simp) (out := none) (by simp)).1, h1]
  have hF : Faithful a.lay (newOut a.lay (itemOf (outOf op a.type))) (straight a.lay.len (headStride a.lay) (itemOf (outOf op a.type))) := by
    by_cases hl : a.lay.len = 0
    · rw [hl]
      refine ⟨fun idx hb => ?_, fun p hp => absurd hp (by simp [straight])⟩
      exfalso
      have := cPos_lt _ _ hb
      have e : prod a.lay.dims = 0 := hl
      omega
    · exact new_contiguous_partial hw hl hi (item_pos (out_small hk)) (.inl hd) hp
  obtain ⟨ws, e, hr⟩ := fresh_walk (lib := lib) hk hp hF hx hf wide hs hc
  rw [hno] at e hr
  exact ⟨_, ws, e, kind_out hk, hr⟩

/-- An array of two dimensions, contiguous or not, turned or not: it is right, unless both dimensions have more than one item and the same distance up to its sign
(overlapping windows, for one). -/
theorem plane_partial {lib : Lib} {op : Op} {n1 n2 it : Nat} {s0 s1 : Int} {type : Nat} {sw : Bool} {m : Nums.Mem} (hk : Known op type) (h1 : 0 < n1) (h2 : 0 < n2) (hi : 0 < it)
    (hg : ¬ (1 < n1 ∧ 1 < n2 ∧ s0.natAbs = s1.natAbs ∧ s0 ≠ 0))
    {xs : List Nat → Int} (hx : ∀ i j : Nat, i < n1 → j < n2 → Item type m (i * s0 + j * s1) (xs [i, j]))
    (hf : ∀ i j : Nat, i < n1 → j < n2 → Fine op type (xs [i, j])) (wide : Nat → Bool) {workers : Nat} {nt : Bool} {par : Option (List Nat)}
    (hs : ChunkSched workers (n1 * n2) nt par) {k ty : Int} (hc : (k, op) ∈ codes) (ht : -(2 ^ 63) ≤ ty ∧ ty < 2 ^ 63) :
    ∃ out ws, ∃ t0 t1 : Int,
      oneInput lib true wide par (.bare (.array ⟨type, ⟨[n1, n2], [s0, s1], it⟩, sw⟩ m)) k ty = .fresh out ⟨[n1, n2], [t0, t1], size out⟩ ws ∧ Kind op type out ∧
      ((t0 = n2 * size out ∧ t1 = size out) ∨ (t0 = size out ∧ t1 = n1 * size out)) ∧
      Right lib op ⟨type, ⟨[n1, n2], [s0, s1], it⟩, sw⟩ xs ⟨[n1, n2], [t0, t1], size out⟩ ws := by
  obtain ⟨l, hp, hiff⟩ := two_dim_iff s0 s1 h1 h2 hi (item_pos (out_small hk)) (item := itemOf (outOf op type))
  obtain ⟨t0, t1, e, hor, -⟩ := newOut2 (it := it) (item := itemOf (outOf op type)) (s0 := s0) (s1 := s1) h1 h2 hi
  obtain ⟨w1, w2, w3⟩ := code_wrap hc
  have hb2 : ∀ idx, InBounds idx [n1, n2] → ∃ i j, idx = [i, j] ∧ i < n1 ∧ j < n2 := fun idx hb => inBounds2.mp hb
  obtain ⟨ws, e', hr⟩ := fresh_walk (lib := lib) (a := ⟨type, ⟨[n1, n2], [s0, s1], it⟩, sw⟩) (m := m) (xs := xs) hk hp (hiff.mpr hg)
    (fun idx hb => by
      obtain ⟨i, j, rfl, hi, hj⟩ := hb2 idx hb
      show Item type m (offs [i, j] [s0, s1]) _
      rw [offs2]; exact hx i j hi hj)
    (fun idx hb => by
      obtain ⟨i, j, rfl, hi, hj⟩ := hb2 idx hb
      exact hf i j hi hj) wide (by
      have : Lay.len ⟨[n1, n2], [s0, s1], it⟩ = n1 * n2 := by unfold Lay.len; simp [prod]
      show ChunkSched workers (Lay.len ⟨[n1, n2], [s0, s1], it⟩) nt par
      rw [this]; exact hs) hc
  refine ⟨outOf op type, ws, t0, t1, ?_, kind_out hk, ?_, ?_⟩
  · rw [(calls_same lib true wide par _ m (k := k) (ty := ty) ⟨w2, w3⟩ ht (dtype := none) (by simp) (out := none) (by simp)).1, w1, e']
    show Res.fresh _ (newOut _ _) _ = _
    rw [e, item_size (out_small hk)]
  · rw [← item_size (out_small hk)]; exact hor
  · rw [← item_size (out_small hk)]
    have e2 : newOut (Arr.lay ⟨type, ⟨[n1, n2], [s0, s1], it⟩, sw⟩) (itemOf (outOf op (Arr.type ⟨type, ⟨[n1, n2], [s0, s1], it⟩, sw⟩))) =
      ⟨[n1, n2], [t0, t1], itemOf (outOf op type)⟩ := e
    rw [e2] at hr
    exact hr

/-- A contiguous array of any number of dimensions, in C order or Fortran order: left to numpy, or right. -/
theorem contiguous_partial {lib : Lib} {op : Op} {a : Arr} {m : Nums.Mem} (hk : Known op a.type) (hw : a.lay.strides.length = a.lay.dims.length) (hl : a.lay.len ≠ 0)
    (hi : 0 < a.lay.item) (hcf : a.lay.cContig = true ∨ a.lay.fContig = true)
    {xs : List Nat → Int} (hx : ∀ idx, InBounds idx a.lay.dims → Item a.type m (offs idx a.lay.strides) (xs idx))
    (hf : ∀ idx, InBounds idx a.lay.dims → Fine op a.type (xs idx)) (wide : Nat → Bool) {workers : Nat} {nt : Bool} {par : Option (List Nat)}
    (hs : ChunkSched workers a.lay.len nt par) {k ty : Int} (hc : (k, op) ∈ codes) (ht : -(2 ^ 63) ≤ ty ∧ ty < 2 ^ 63) :
    oneInput lib true wide par (.bare (.array a m)) k ty = .leave ∨
    ∃ out lay ws, oneInput lib true wide par (.bare (.array a m)) k ty = .fresh out lay ws ∧ Kind op a.type out ∧ Right lib op a xs lay ws := by
  obtain ⟨w1, w2, w3⟩ := code_wrap hc
  rw [(calls_same lib true wide par a m (k := k) (ty := ty) ⟨w2, w3⟩ ht (dtype := none) (by simp) (out := none) (by simp)).1, w1]
  cases hp : planNew a.lay (itemOf (outOf op a.type)) with
  | none =>
    left
    obtain ⟨call, hcall⟩ := Option.isSome_iff_exists.mp ((kernel_known lib op a.type).mpr hk)
    unfold fresh
    rw [(op_iff k op).mpr hc]
    simp only [hcall, hp]
    rfl
  | some l =>
    right
    obtain ⟨ws, e, hr⟩ := fresh_walk (lib := lib) hk hp (new_contiguous_partial hw hl hi (item_pos (out_small hk)) (.inr hcf) hp) hx hf wide hs hc
    exact ⟨_, _, ws, e, kind_out hk, hr⟩

/-- With an output of one dimension whose items do not lie on each other: it is filled with the answers, whatever the distances. -/
theorem into_line_partial {lib : Lib} {op : Op} {type ot n it io : Nat} {s t : Int} {sw so : Bool} {m mo : Nums.Mem} (hk : Known op type) (ho : Kind op type ot)
    (hio : io ≠ 0) (ht0 : t ≠ 0)
    {xs : List Nat → Int} (hx : ∀ i : Nat, i < n → Item type m (i * s) (xs [i])) (hf : ∀ i : Nat, i < n → Fine op type (xs [i]))
    (wide : Nat → Bool) {workers : Nat} {nt : Bool} {par : Option (List Nat)} (hs : ChunkSched workers n nt par) {k ty : Int} (hc : (k, op) ∈ codes)
    (ht : -(2 ^ 63) ≤ ty ∧ ty < 2 ^ 63) (room : Bool) :
    ∃ ws, oneInput lib room wide par (.tuple [.array ⟨type, ⟨[n], [s], it⟩, sw⟩ m, .array ⟨ot, ⟨[n], [t], io⟩, so⟩ mo]) k ty = .into ws ∧
      Right lib op ⟨type, ⟨[n], [s], it⟩, sw⟩ xs ⟨[n], [t], io⟩ ws := by
  obtain ⟨w1, w2, w3⟩ := code_wrap hc
  have f1 : fits k = true := decide_eq_true (by omega)
  have f2 : fits ty = true := decide_eq_true (by omega)
  have hlen : ∀ s it, Lay.len ⟨[n], [s], it⟩ = n := fun s it => by unfold Lay.len; simp [prod]
  have hcon : ∀ s it, contig ⟨[n], [s], it⟩ = (0, headStride ⟨[n], [s], it⟩) := fun s it => by unfold contig; rw [if_pos (by simp)]
  have hhead : ∀ s it, headStride ⟨[n], [s], it⟩ = if 1 < n then s else (it : Int) := fun s it => by unfold headStride dim str; simp
  have hF : Faithful ⟨[n], [s], it⟩ ⟨[n], [t], io⟩ (straight n (headStride ⟨[n], [s], it⟩) (headStride ⟨[n], [t], io⟩)) := by
    have := faithful_straight_c (a := ⟨[n], [s], it⟩) (out := ⟨[n], [t], io⟩) (si := headStride ⟨[n], [s], it⟩) (so := headStride ⟨[n], [t], io⟩)
    rw [hlen] at this
    have hone : ∀ s it idx, InBounds idx [n] → offs idx [s] = (cPos idx [n] : Int) * headStride ⟨[n], [s], it⟩ := by
      intro s it idx hb
      match idx, hb with
      | [i], hb =>
        have hi : i < n := hb.1
        rw [hhead]
        split
        · simp [offs, cPos, prod]
        · have : i = 0 := by omega
          subst this; simp [offs, cPos, prod]
    exact this (fun idx hb => hone s it idx hb) (fun idx hb => hone t io idx hb)
  have hp : plan ⟨[n], [s], it⟩ ⟨[n], [t], io⟩ = some (straight n (headStride ⟨[n], [s], it⟩) (headStride ⟨[n], [t], io⟩)) := by
    unfold plan; rw [hcon, hcon, hlen]; simp
  obtain ⟨call, hcall⟩ := Option.isSome_iff_exists.mp ((kernel_known lib op type).mpr hk)
  have hb1 : ∀ idx, InBounds idx [n] → ∃ i, idx = [i] ∧ i < n := fun idx hb => by
    match idx, hb with
    | [i], hb => exact ⟨i, rfl, hb.1⟩
    | _ :: _ :: _, hb => exact hb.2.elim
  obtain ⟨ys, e, hr⟩ := walk_right (a := ⟨type, ⟨[n], [s], it⟩, sw⟩) (m := m) (xs := xs) hcall hF ⟨(plan_length hp).1, (plan_length hp).2.1⟩
    (fun idx hb => by obtain ⟨i, rfl, hi⟩ := hb1 idx hb; simpa [offs] using hx i hi)
    (fun idx hb => by obtain ⟨i, rfl, hi⟩ := hb1 idx hb; exact hf i hi) wide (by show ChunkSched workers (Lay.len ⟨[n], [s], it⟩) nt par; rw [hlen]; exact hs)
  refine ⟨_, ?_, hr⟩
  have hout : ot = outOf op type := by
    have h := kind_out hk
    unfold Kind at ho h
    cases op <;> first | exact ho.trans h.symm | skip
    dsimp only at ho h
    split at ho <;> split at h <;> first | exact ho.trans h.symm | contradiction
  have hnz : (contig ⟨[n], [t], io⟩).2 ≠ 0 := by
    rw [hcon]
    show headStride _ ≠ 0
    rw [hhead]
    split
    · exact ht0
    · omega
  have hg : planGiven ⟨[n], [s], it⟩ ⟨[n], [t], io⟩ = some (straight n (headStride ⟨[n], [s], it⟩) (headStride ⟨[n], [t], io⟩)) := by
    unfold planGiven; rw [hlen, hlen, if_pos rfl, hp]
  unfold oneInput
  rw [f1, f2]
  show into lib wide par _ m _ (IT.i32.wrap k) = _
  rw [w1]
  unfold into
  rw [(op_iff k op).mpr hc]
  simp only [hcall, hg, e]
  rw [if_neg (by simpa using hout), if_neg hnz]

/-- With an output of the same shape, both contiguous in the same order: left to numpy, or filled with the answers. -/
theorem into_contiguous_partial {lib : Lib} {op : Op} {a o : Arr} {m mo : Nums.Mem} (hk : Known op a.type) (ho : Kind op a.type o.type) (hd : o.lay.dims = a.lay.dims)
    (hl : a.lay.len ≠ 0) (hi : 0 < a.lay.item) (hio : 0 < o.lay.item)
    (hcf : (a.lay.cContig = true ∧ o.lay.cContig = true) ∨ (a.lay.fContig = true ∧ o.lay.fContig = true))
    {xs : List Nat → Int} (hx : ∀ idx, InBounds idx a.lay.dims → Item a.type m (offs idx a.lay.strides) (xs idx))
    (hf : ∀ idx, InBounds idx a.lay.dims → Fine op a.type (xs idx)) (wide : Nat → Bool) {workers : Nat} {nt : Bool} {par : Option (List Nat)}
    (hs : ChunkSched workers a.lay.len nt par) {k ty : Int} (hc : (k, op) ∈ codes) (ht : -(2 ^ 63) ≤ ty ∧ ty < 2 ^ 63) (room : Bool) :
    oneInput lib room wide par (.tuple [.array a m, .array o mo]) k ty = .leave ∨
    ∃ ws, oneInput lib room wide par (.tuple [.array a m, .array o mo]) k ty = .into ws ∧ Right lib op a xs o.lay ws := by
  obtain ⟨w1, w2, w3⟩ := code_wrap hc
  have f1 : fits k = true := decide_eq_true (by omega)
  have f2 : fits ty = true := decide_eq_true (by omega)
  obtain ⟨call, hcall⟩ := Option.isSome_iff_exists.mp ((kernel_known lib op a.type).mpr hk)
  have hout : o.type = outOf op a.type := by
    have h := kind_out hk
    unfold Kind at ho h
    cases op <;> first | exact ho.trans h.symm | skip
    dsimp only at ho h
    split at ho <;> split at h <;> first | exact ho.trans h.symm | contradiction
  have hcall' : oneInput lib room wide par (.tuple [.array a m, .array o mo]) k ty = into lib wide par a m o k := by
    unfold oneInput
    rw [f1, f2]
    show into lib wide par _ m _ (IT.i32.wrap k) = _
    rw [w1]
  rw [hcall']
  unfold into
  rw [(op_iff k op).mpr hc]
  simp only [hcall]
  rw [if_neg (by simpa using hout)]
  cases hp : planGiven a.lay o.lay with
  | none => exact .inl rfl
  | some l =>
    right
    have hF := given_contiguous_partial hd hl hi hio hcf hp
    have hpl : plan a.lay o.lay = some l := by
      unfold planGiven at hp
      split at hp
      · exact hp
      · exact absurd hp (by simp)
    have hpp := plan_length hpl
    have hlo : o.lay.len ≠ 0 := by unfold Lay.len at *; rw [hd]; exact hl
    have hnz : (contig o.lay).2 ≠ 0 := by
      have : (contig o.lay).2 = o.lay.item := by
        rcases hcf with ⟨-, h⟩ | ⟨-, h⟩
        · exact (contig_c h hlo hio).2.2 hpp.2.2
        · exact (contig_f h hlo hio).2.2 hpp.2.2
      rw [this]; omega
    obtain ⟨ys, e, hr⟩ := walk_right (a := a) (m := m) (xs := xs) hcall hF ⟨hpp.1, hpp.2.1⟩ hx hf wide hs
    refine ⟨_, ?_, hr⟩
    simp only [e]
    rw [if_neg hnz]

/-- What has no kernel is left to numpy: a number without an operation, or a type which the operation does not know. -/
theorem unknown_left (lib : Lib) (room : Bool) (wide : Nat → Bool) (par : Option (List Nat)) (a : Arr) (m : Nums.Mem) (k : Int)
    (h : ∀ op, (k, op) ∈ codes → ¬ Known op a.type) : fresh lib room wide par a m k = .leave := by
  unfold fresh
  cases ho : opOf k with
  | none => rfl
  | some op =>
    have := h op ((op_iff k op).mp ho)
    rw [← kernel_known lib] at this
    cases hk : kernel lib op a.type with
    | none => simp only [hk]
    | some c => rw [hk] at this; exact absurd rfl this

end Riptide.Unary.Call
