import Verif.Keys.Call
import Verif.Keys.Spec
import Verif.Pack.CallProps
import Verif.Take.Props
import Verif.Combine.Props
/-! What `ReverseShuffle`, `ReIndexGroups`, `CombineFilter` and `MakeiFirst` answer for arrays (C146). -/
namespace Riptide.Keys
open Riptide.Nums Riptide.Work Riptide.Hash Riptide.Hash.Spec
open Riptide.Pack.Call (items keyType sizeType items_of keys_type keys_items keyType_none)
open Riptide.Pack.Call.Spec (Keys)
open Riptide.Keys.Spec

theorem keys_bits {a : Arr} {t : IT} {m : Mem} {keys : List Int} (k : Keys a t m keys) : 1 < t.bits := by
  rcases k.type with ⟨_, rfl⟩ | ⟨_, rfl⟩ | ⟨_, rfl⟩ | ⟨_, rfl⟩ <;> decide

/-! ## `ReverseShuffle` -/

/-- For keys which are a permutation of the row numbers, of a signed type, in C order and in the order of bytes of the machine, the answer is the
inverse permutation, for every schedule. -/
theorem reverse_partial {a : Arr} {t : IT} {m : Mem} {keys : List Int} (k : Keys a t m keys)
    (hperm : keys.Perm ((List.range keys.length).map Int.ofNat)) {workers : Nat} {nt : Bool} {par : Option (List Nat)}
    (h : ChunkSched workers keys.length nt par) :
    ∃ out : List Int, reverse a m par = .ok (out.map some) ∧ out.length = keys.length ∧
      (∀ (i : Nat) v, keys[i]? = some v → 0 ≤ v ∧ out[v.toNat]? = some (i : Int)) ∧
      (∀ (j : Nat) v, out[j]? = some v → 0 ≤ v ∧ keys[v.toNat]? = some (j : Int)) := by
  obtain ⟨hs, hb, _, hz, hc⟩ := keys_type k
  obtain ⟨hl, hi⟩ := keys_items k
  have hfit : ∀ v ∈ keys, v < 2 ^ (t.bits - 1) := by
    intro v hv
    have := ints_range k.vals v hv
    unfold IT.InRange IT.hi at this
    rw [if_pos hs] at this
    omega
  obtain ⟨out, h1, h2, h3, h4⟩ := Take.reverse_shuffle_inverse t.bits keys hb hperm hfit h
  refine ⟨out, ?_, h2, ?_, ?_⟩
  · unfold reverse
    rw [if_neg hc, hz]
    simp only
    rw [hi, Option.bind_some, ← hl, h1]
    rfl
  · intro i v hv
    obtain ⟨hlt, rfl⟩ := List.getElem?_eq_some_iff.1 hv
    exact h3 i hlt
  · intro j v hv
    obtain ⟨hlt, rfl⟩ := List.getElem?_eq_some_iff.1 hv
    exact h4 j hlt

/-- Whatever the keys are, nothing is written outside of the answer. -/
theorem reverse_in_bounds {a : Arr} {t : IT} {m : Mem} {keys : List Int} (k : Keys a t m keys) {workers : Nat} {nt : Bool} {par : Option (List Nat)}
    (h : ChunkSched workers keys.length nt par) : ∃ out, reverse a m par = .ok out ∧ out.length = keys.length := by
  obtain ⟨hs, hb, _, hz, hc⟩ := keys_type k
  obtain ⟨hl, hi⟩ := keys_items k
  obtain ⟨out, h1, h2⟩ := Take.reverse_shuffle_in_bounds t.bits keys h
  refine ⟨out, ?_, h2⟩
  unfold reverse
  rw [if_neg hc, hz]
  simp only
  rw [hi, Option.bind_some, ← hl, h1]
  rfl

/-- Keys which are no signed integers are refused. -/
theorem reverse_type_refused (a : Arr) (m : Mem) (par : Option (List Nat)) (h : a.type ∉ [1, 3, 5, 7, 9]) : reverse a m par = .typeRefused := by
  unfold reverse
  rw [if_pos]
  simp only [List.mem_cons, List.not_mem_nil, or_false] at h
  omega

/-! ## `ReIndexGroups` -/

/-- Row `j` of partition `t` is renumbered through the unique keys of its partition, rows behind the last cutoff are left alone. Missing from the full
statement: cutoffs which fall or lie outside of the keys, and unique keys which do not fit the type of the keys. -/
theorem reindex_partial {g : Groups} {t : IT} {ikey uikey : List Int} {ucut icut : List Nat} (k : Keys g.ik t g.im ikey) (u : Keys g.uk .i32 g.um uikey)
    (p : Keys g.uc .i64 g.ucm (ucut.map Int.ofNat)) (q : Keys g.ic .i64 g.icm (icut.map Int.ofNat)) (hlen : ucut.length = icut.length)
    (hfit : ∀ x ∈ uikey, t.InRange x) (hmono : icut.Pairwise (· ≤ ·)) (hb : ∀ c ∈ icut, c ≤ ikey.length)
    (calls : List Nat) (hperm : calls.Perm (List.range icut.length)) :
    ∃ out, reindex g calls = .ok out ∧ out.length = ikey.length ∧
      (∀ t (_ : t < icut.length) j (_ : j < ikey.length), Take.Spec.first icut t ≤ j → j < icut[t] →
        out[j]? = some (Take.Spec.reindex uikey (Take.Spec.first ucut t) ikey[j])) ∧
      (∀ j (_ : j < ikey.length), (∀ c ∈ icut, c ≤ j) → out[j]? = some ikey[j]) := by
  obtain ⟨hs, hbits, _, hz, _⟩ := keys_type k
  have hf : ∀ x ∈ uikey, -(2 : Int) ^ (t.bits - 1) ≤ x ∧ x < 2 ^ (t.bits - 1) := by
    intro x hx
    have := hfit x hx
    unfold IT.InRange IT.hi IT.lo at this
    rw [if_pos hs, if_pos hs] at this
    omega
  obtain ⟨out, h1, h2⟩ := Take.reindex_groups_exact t.bits uikey hbits hf ucut icut hlen ikey hmono hb calls hperm
  refine ⟨out, ?_, h2⟩
  unfold reindex
  rw [if_neg (by rw [u.item, p.item, q.item]; decide), hz]
  simp only
  rw [(keys_items k).2, (keys_items u).2, (keys_items p).2, (keys_items q).2]
  simp only [Option.bind_some]
  rw [h1]
  rfl

/-- Other sizes of items are refused. -/
theorem reindex_size_refused (g : Groups) (calls : List Nat)
    (h : g.uc.lay.item ≠ 8 ∨ g.ic.lay.item ≠ 8 ∨ g.uk.lay.item ≠ 4 ∨ g.ik.lay.item ∉ [1, 2, 4, 8]) : reindex g calls = .typeRefused := by
  unfold reindex
  by_cases h1 : g.uc.lay.item ≠ 8 ∨ g.ic.lay.item ≠ 8 ∨ g.uk.lay.item ≠ 4
  · rw [if_pos h1]
  · rw [if_neg h1]
    have h2 : g.ik.lay.item ∉ [1, 2, 4, 8] := by
      rcases h with h | h | h | h
      · exact absurd (.inl h) h1
      · exact absurd (.inr (.inl h)) h1
      · exact absurd (.inr (.inr h)) h1
      · exact h
    have h3 : sizeType g.ik.lay.item = none := by
      simp only [List.mem_cons, List.not_mem_nil, or_false] at h2
      unfold sizeType
      split <;> first | rfl | omega
    rw [h3]

/-! ## `CombineFilter` -/

theorem flags_items {f : Arr} {fm : Mem} {kept : List Bool} (h : Flags f fm kept) :
    kept.length = f.lay.len ∧ items .i8 fm f.lay.len = some (kept.map fun b => if b then 1 else 0) := by
  have := items_of (t := .i8) (by decide) (by rw [h.item]; rfl) h.plain h.vals
  exact ⟨by simpa using this.1, this.2⟩

/-- Kept rows keep their key, the others get 0, for every schedule. -/
theorem filter_partial {a f : Arr} {t : IT} {m fm : Mem} {keys : List Int} {kept : List Bool} (k : Keys a t m keys) (q : Flags f fm kept)
    (hl : keys.length = kept.length) {workers : Nat} {nt : Bool} {par : Option (List Nat)} (h : ChunkSched workers keys.length nt par) :
    ∃ out : List Int, filterKeys a m f fm par = .ok (out.map some) ∧ out.length = keys.length ∧
      ∀ (i : Nat) x b, keys[i]? = some x → kept[i]? = some b → out[i]? = some (if b then x else 0) := by
  obtain ⟨hs, hb, ht, _, _⟩ := keys_type k
  obtain ⟨hl1, hi1⟩ := keys_items k
  obtain ⟨hl2, hi2⟩ := flags_items q
  have e : a.lay.len = f.lay.len := by omega
  obtain ⟨out, h1, h2, h3⟩ := Combine.combine_filter_exact t (keys_bits k) keys (kept.map fun b => if b then 1 else 0) (by simpa using hl)
    (ints_range k.vals) (by
      intro x hx
      obtain ⟨b, _, rfl⟩ := List.mem_map.1 hx
      cases b <;> simp) h
  refine ⟨out, ?_, h2, ?_⟩
  · unfold filterKeys
    rw [if_neg (by simpa using e), if_neg (by simpa using q.type), ht]
    simp only
    rw [hi1, Option.bind_some, e, hi2, Option.bind_some, h1]
    rfl
  · intro i x b hx hb'
    have := h3 i x (if b then 1 else 0) hx (by rw [List.getElem?_map, hb']; rfl)
    rw [this]
    cases b <;> simp

/-- A filter of another length, then one of another type, then other keys are refused. -/
theorem filter_refused (a f : Arr) (m fm : Mem) (par : Option (List Nat)) :
    (a.lay.len ≠ f.lay.len → filterKeys a m f fm par = .lengths) ∧
    (a.lay.len = f.lay.len → f.type ≠ 0 → filterKeys a m f fm par = .filterType) ∧
    (a.lay.len = f.lay.len → f.type = 0 → a.type ∉ [1, 3, 5, 7, 9] → filterKeys a m f fm par = .typeRefused) := by
  refine ⟨fun h => ?_, fun h1 h2 => ?_, fun h1 h2 h3 => ?_⟩
  · unfold filterKeys; rw [if_pos h]
  · unfold filterKeys; rw [if_neg (by simpa using h1), if_pos h2]
  · unfold filterKeys; rw [if_neg (by simpa using h1), if_neg (by simpa using h2), keyType_none h3]

/-! ## `MakeiFirst` -/

/-- For every group the first (last) row which passes the filter, or the invalid value. Group 0 has none. -/
theorem first_partial {a : Arr} {t : IT} {m : Mem} {keys : List Int} {kept : List Bool} (k : Keys a t m keys) (filter : Option (Arr × Mem))
    (hf : Kept keys.length filter kept) (max : Int) (h0 : -1 ≤ max) (h1 : max < 20000000000) (last : Int) :
    ∃ out, first a m max filter last = .ok out ∧ (out.length : Int) = max + 1 ∧
      ∀ (g : Nat) v, out[g]? = some v →
        (v = -2 ^ 63 ∧ (g = 0 ∨ ∀ j : Nat, (keys.zip kept)[j]? ≠ some ((g : Int), true))) ∨
        (0 < g ∧ ∃ j : Nat, v = (j : Int) ∧
          if last ≠ 0 then LastAt (keys.zip kept) ((g : Int), true) j else FirstIs (keys.zip kept) ((g : Int), true) j) := by
  obtain ⟨hs, hb, ht, _, _⟩ := keys_type k
  obtain ⟨hl1, hi1⟩ := keys_items k
  obtain ⟨out, g1, g2, g3⟩ := Combine.make_ifirst_exact (decide (last ≠ 0)) (max + 1).toNat (keys.zip kept)
  have hin : IT.i64.InRange (max + 1) := by
    unfold IT.InRange
    rw [show IT.i64.lo = -9223372036854775808 from by decide, show IT.i64.hi = 9223372036854775807 from by decide]
    omega
  have hk : keptRows a.lay.len filter = some kept ∧ (filter.map fun p => decide (p.1.lay.len ≠ a.lay.len)) ≠ some true ∧
      (filter.map fun p => decide (p.1.type ≠ 0)) ≠ some true := by
    cases filter with
    | none => simp only [Kept] at hf; subst hf; exact ⟨by rw [← hl1]; rfl, by simp, by simp⟩
    | some p =>
      obtain ⟨f, fm⟩ := p
      simp only [Kept] at hf
      obtain ⟨hl2, hi2⟩ := flags_items hf.1
      have e : a.lay.len = f.lay.len := by omega
      refine ⟨?_, by simp [e], by simp [hf.1.type]⟩
      simp only [keptRows]
      rw [e, hi2, Option.map_some, List.map_map]
      congr 1
      conv => rhs; rw [← List.map_id kept]
      apply List.map_congr_left
      intro b _
      cases b <;> decide
  refine ⟨out, ?_, by rw [g2]; omega, ?_⟩
  · unfold first
    rw [if_neg hk.2.1, if_neg hk.2.2, if_neg (by simpa using hin), if_neg (by omega), ht]
    simp only
    rw [hi1, hk.1, Option.bind_some, Option.bind_some, g1]
    rfl
  · intro g v hv
    rcases g3 g v hv with ⟨e, h⟩ | ⟨e, j, hj, h⟩
    · exact .inl ⟨e, h⟩
    · refine .inr ⟨e, j, hj, ?_⟩
      by_cases hlst : last ≠ 0
      · rw [if_pos hlst]; rw [if_pos (by simpa using hlst)] at h; exact h
      · rw [if_neg hlst]; rw [if_neg (by simpa using hlst)] at h; exact h

/-- A filter of another length, then one of another type, then too many groups or a negative number are refused. -/
theorem first_refused (a f : Arr) (m fm : Mem) (max last : Int) :
    (f.lay.len ≠ a.lay.len → first a m max (some (f, fm)) last = .lengths) ∧
    (f.lay.len = a.lay.len → f.type ≠ 0 → first a m max (some (f, fm)) last = .filterType) ∧
    ((max < -1 ∨ 20000000000 ≤ max) → IT.i64.InRange (max + 1) → first a m max none last = .tooMany) := by
  refine ⟨fun h => ?_, fun h1 h2 => ?_, fun h1 h2 => ?_⟩
  · unfold first; rw [if_pos (by simp [h])]
  · unfold first; rw [if_neg (by simp [h1]), if_pos (by simp [h2])]
  · unfold first; rw [if_neg (by simp), if_neg (by simp), if_neg (by simpa using h2), if_pos (by omega)]

end Riptide.Keys
