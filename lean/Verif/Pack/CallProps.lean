import Verif.Pack.Call
import Verif.Pack.CallSpec
import Verif.Pack.Props
import Verif.Pack.CountProps
import Verif.Arrays.NumsLemmas
import Verif.Binary.Loops
/-! What `MakeiNext`, `GroupByPack32`, `GroupFromBinCount` and `BinCount` answer for arrays (C145). -/
namespace Riptide.Pack.Call
open Riptide.Nums Riptide.Work Riptide.Pack.Spec Riptide.Pack.Call.Spec

theorem items_of {t : IT} {a : Arr} {m : Mem} {keys : List Int} (hb : 0 < t.bits) (hi : a.lay.item = t.bits / 8) (hp : Plain a) (hv : Ints t a m keys) :
    keys.length = a.lay.len ∧ items t m a.lay.len = some keys := by
  obtain ⟨h1, h2⟩ := plain_ints hb hp hv
  refine ⟨h1, ?_⟩
  unfold items
  rw [Riptide.Binary.mapM_some_range a.lay.len _ (fun i => keys[i]?.getD 0)]
  · congr 1
    apply List.ext_getElem
    · simp [h1]
    · intro i h3 h4
      simp [List.getElem?_eq_getElem h4]
  · intro i hl
    have := h2 i keys[i] (List.getElem?_eq_getElem (by omega))
    unfold item
    rw [← hi, this, List.getElem?_eq_getElem (by omega)]
    rfl

theorem keys_type {a : Arr} {t : IT} {m : Mem} {keys : List Int} (k : Keys a t m keys) :
    t.signed = true ∧ 0 < t.bits ∧ keyType a.type = some t ∧ sizeType a.lay.item = some t ∧ ¬ (a.type ≥ 10 ∨ a.type % 2 = 0) := by
  have hi := k.item
  rcases k.type with ⟨h, rfl⟩ | ⟨h, rfl⟩ | ⟨h, rfl⟩ | ⟨h | h, rfl⟩ <;> rw [h, hi] <;> decide

theorem keys_items {a : Arr} {t : IT} {m : Mem} {keys : List Int} (k : Keys a t m keys) :
    keys.length = a.lay.len ∧ items t m a.lay.len = some keys :=
  items_of (keys_type k).2.1 k.item k.plain k.vals

theorem fmAlloc_gives {room : Nat → Bool} {bytes : Nat} (h : Gives room bytes) : fmAlloc room (bytes : Int) = .mem bytes := by
  have h1 := h.1
  have e : (((bytes : Nat) : Int) + 16) % 2 ^ 64 = ((bytes + 16 : Nat) : Int) := by
    rw [Int.emod_eq_of_lt (by omega) (by omega)]; omega
  unfold fmAlloc
  simp only [e, Int.toNat_natCast, h.2, if_true]
  rw [if_neg (by omega)]
  congr 1

/-! ## `MakeiNext` -/

theorem nextKernel_plain {room : Nat → Bool} {t : IT} {m : Mem} {n bins : Nat} {mode : Int} {keys : List Int} (hk : items t m n = some keys)
    (hu : (bins : Int) < 2 ^ 63 - 1) (hr : Gives room (t.bits / 8 * (bins + 1))) :
    nextKernel room t m n (bins : Int) mode = makeNextKey t mode bins keys := by
  have e : ((t.bits / 8 : Nat) : Int) * ((bins : Int) + 1) = ((t.bits / 8 * (bins + 1) : Nat) : Int) := by push_cast; rfl
  have hin : IT.i64.InRange ((bins : Int) + 1) := by
    unfold IT.InRange
    rw [show IT.i64.lo = -9223372036854775808 from by decide, show IT.i64.hi = 9223372036854775807 from by decide]
    omega
  unfold nextKernel
  rw [if_neg (by simpa using hin), e, fmAlloc_gives hr]
  simp only [hk, Option.bind_some, Int.toNat_natCast]
  rw [if_neg (by omega), if_neg (by omega)]

/-- The next rows, for keys of a signed type, in C order, in the order of bytes of the machine. Missing from the full statement: more rows than
the type of the keys can number, rows of other groups (never written), and a scratch array which cannot be allocated
(`next_no_memory_unwritten`). -/
theorem next_partial {room : Nat → Bool} {a : Arr} {t : IT} {m : Mem} {keys : List Int} (k : Keys a t m keys) (bins : Nat)
    (hu : (bins : Int) < 2 ^ 63 - 1) (hr : Gives room (t.bits / 8 * (bins + 1))) (hn : (keys.length : Int) ≤ (2 : Int) ^ (t.bits - 1)) :
    ∃ out, makeiNext room a m (bins : Int) 0 = .ok out ∧ out.length = keys.length ∧
      (∀ (i : Nat) (x : Int), keys[i]? = some x → 0 ≤ x → x ≤ (bins : Int) → ∃ v, out[i]? = some (some v) ∧ NextLink keys t.inv i v) ∧
      (∀ (i : Nat) (x : Int), keys[i]? = some x → ¬ (0 ≤ x ∧ x ≤ (bins : Int)) → out[i]? = some none) := by
  obtain ⟨hs, hb, _, hz, hc⟩ := keys_type k
  obtain ⟨out, h1, h2⟩ := makeNextKey_next_partial hs hb bins keys hn
  refine ⟨out, ?_, h2⟩
  unfold makeiNext
  rw [if_neg hc, hz]
  simp only
  rw [nextKernel_plain (keys_items k).2 hu hr, h1]
  rfl

/-- The previous rows, for every mode but 0. -/
theorem prev_partial {room : Nat → Bool} {a : Arr} {t : IT} {m : Mem} {keys : List Int} (k : Keys a t m keys) (bins : Nat) (mode : Int) (hm : mode ≠ 0)
    (hu : (bins : Int) < 2 ^ 63 - 1) (hr : Gives room (t.bits / 8 * (bins + 1))) (hn : (keys.length : Int) ≤ (2 : Int) ^ (t.bits - 1)) :
    ∃ out, makeiNext room a m (bins : Int) mode = .ok out ∧ out.length = keys.length ∧
      (∀ (i : Nat) (x : Int), keys[i]? = some x → 0 ≤ x → x ≤ (bins : Int) → ∃ v, out[i]? = some (some v) ∧ PrevLink keys t.inv i v) ∧
      (∀ (i : Nat) (x : Int), keys[i]? = some x → ¬ (0 ≤ x ∧ x ≤ (bins : Int)) → out[i]? = some none) := by
  obtain ⟨hs, hb, _, hz, hc⟩ := keys_type k
  obtain ⟨out, h1, h2⟩ := makeNextKey_prev_partial hs hb mode hm bins keys hn
  refine ⟨out, ?_, h2⟩
  unfold makeiNext
  rw [if_neg hc, hz]
  simp only
  rw [nextKernel_plain (keys_items k).2 hu hr, h1]
  rfl

/-- Keys which are no signed integers are refused. -/
theorem next_type_refused (room : Nat → Bool) (a : Arr) (m : Mem) (unique mode : Int) (h : a.type ∉ [1, 3, 5, 7, 9]) :
    makeiNext room a m unique mode = .typeRefused := by
  unfold makeiNext
  rw [if_pos]
  simp only [List.mem_cons, List.not_mem_nil, or_false] at h
  omega

/-! ## `GroupByPack32` -/

theorem packLinks_all (bins : Nat) (keys next : List Int) : packLinks bins keys (next.map some) = groupByPackNext bins keys next := rfl

theorem bins_range {bins : Nat} (hu : (bins : Int) < 2 ^ 63 - 1) : IT.i64.InRange ((bins : Int) + 1) := by
  unfold IT.InRange
  rw [show IT.i64.lo = -9223372036854775808 from by decide, show IT.i64.hi = 9223372036854775807 from by decide]
  omega

/-- Without links, the groups are packed. Missing from the full statement: no rows, 2^31 rows or groups, keys which are no group, and a scratch array
which cannot be allocated, all of them undefined. -/
theorem pack_partial {room : Nat → Bool} {a : Arr} {t : IT} {m : Mem} {keys : List Int} (k : Keys a t m keys) (bins : Nat)
    (hu : (bins : Int) + 1 < 2 ^ 31) (hg : Gives room (4 * (bins + 1))) (hr : Gives room (4 * keys.length)) (h0 : 0 < keys.length)
    (hn : keys.length < 2 ^ 31) (hk : ∀ (i : Nat) (x : Int), keys[i]? = some x → 0 ≤ x ∧ x ≤ (bins : Int)) :
    ∃ group first count, pack32 room a m none (bins : Int) = .ok (group, first, count) ∧ group.length = keys.length ∧
      Slices keys (bins + 1) group first count ∧ Tiled (bins + 1) keys.length first count := by
  obtain ⟨hs, hb, ht, _, _⟩ := keys_type k
  obtain ⟨hl, hi⟩ := keys_items k
  obtain ⟨group, first, count, h1, h2⟩ := groupByPack_slices_partial (bins := bins) h0 hn (fun i x hx => by have := hk i x hx; omega)
  refine ⟨group, first, count, ?_, h2⟩
  have e1 : (4 : Int) * ((bins : Int) + 1) = ((4 * (bins + 1) : Nat) : Int) := by push_cast; rfl
  have e2 : (4 : Int) * (a.lay.len : Int) = ((4 * keys.length : Nat) : Int) := by rw [hl]; push_cast; rfl
  unfold pack32
  rw [if_neg (by simpa using bins_range (bins := bins) (by omega))]
  simp only
  rw [e1, fmAlloc_gives hg, if_neg (by simp), ht]
  simp only
  unfold packNoLinks
  rw [e2, fmAlloc_gives hr, if_neg (by simp only [Alloc.cap]; simp; omega), if_neg (by simp <;> omega), if_neg (by omega), if_neg (by omega), hi]
  simp only [Option.bind_some, Int.toNat_natCast, h1]
  rfl

theorem items_links {lm : Mem} {n : Nat} {next : List Int} (h : items .i32 lm n = some next) :
    (List.range n).map (item .i32 lm) = next.map some := by
  unfold items at h
  have : ∀ (l : List Nat) (r : List Int), l.mapM (item .i32 lm) = some r → l.map (item .i32 lm) = r.map some := by
    intro l
    induction l with
    | nil => intro r hr; simp at hr; subst hr; rfl
    | cons x l ih =>
      intro r hr
      rw [List.mapM_cons] at hr
      cases hx : item .i32 lm x with
      | none => rw [hx] at hr; simp at hr
      | some v =>
        rw [hx] at hr
        cases hq : l.mapM (item .i32 lm) with
        | none => rw [hq] at hr; simp at hr
        | some q =>
          rw [hq] at hr
          simp at hr
          subst hr
          simp [hx, ih q hq]
  exact this _ _ h

/-- With links of type int32 which are the right ones, and groups numbered by first appearance. -/
theorem pack_links_partial {room : Nat → Bool} {a b : Arr} {t : IT} {m lm : Mem} {keys next : List Int} (k : Keys a t m keys) (q : Keys b .i32 lm next)
    (bins : Nat) (hu : (bins : Int) < 2 ^ 63 - 1) (h0 : 0 < keys.length) (hn : keys.length < 2 ^ 31) (hnum : Numbered keys bins)
    (hl : next.length = keys.length) (hnext : ∀ (i : Nat) (v : Int), next[i]? = some v → NextLink keys (-1) i v) :
    ∃ group first count, pack32 room a m (some (b, lm)) (bins : Int) = .ok (group, first, count) ∧ group.length = keys.length ∧
      Slices keys (bins + 1) group first count ∧ Tiled (bins + 1) keys.length first count := by
  obtain ⟨_, _, ht, _, _⟩ := keys_type k
  obtain ⟨hl1, hi1⟩ := keys_items k
  obtain ⟨hl2, hi2⟩ := keys_items q
  have e : a.lay.len = b.lay.len := by rw [← hl1, ← hl2, hl]
  obtain ⟨group, first, count, h1, h2⟩ := groupByPackNext_slices_partial (next := next) h0 hn hnum (fun i hi =>
    ⟨next[i], List.getElem?_eq_getElem (by omega), hnext i _ (List.getElem?_eq_getElem (by omega))⟩)
  refine ⟨group, first, count, ?_, h2⟩
  unfold pack32
  rw [if_neg (by simpa using bins_range hu)]
  simp only
  rw [if_neg (by simpa using e), ht]
  simp only
  unfold packWithLinks
  rw [if_neg (by omega), if_neg (by omega), hi1]
  simp only [Option.bind_some, Int.toNat_natCast]
  rw [e, items_links hi2, packLinks_all, h1]
  rfl

/-- Links of another length are refused. -/
theorem links_length_refused (room : Nat → Bool) (a b : Arr) (m lm : Mem) (unique : Int) (hu : IT.i64.InRange (unique + 1)) (h : a.lay.len ≠ b.lay.len) :
    pack32 room a m (some (b, lm)) unique = .lengths := by
  unfold pack32
  rw [if_neg (by simpa using hu)]
  simp only
  rw [if_pos h]

theorem keyType_none {n : Nat} (h : n ∉ [1, 3, 5, 7, 9]) : keyType n = none := by
  simp only [List.mem_cons, List.not_mem_nil, or_false] at h
  unfold keyType
  split <;> first | rfl | omega

/-- Keys which are no signed integers are refused. -/
theorem pack_type_refused (room : Nat → Bool) (a : Arr) (m : Mem) (links : Option (Arr × Mem)) (bins : Nat) (hu : (bins : Int) < 2 ^ 63 - 1)
    (hr : Gives room (4 * (bins + 1))) (hl : ∀ b lm, links = some (b, lm) → b.lay.len = a.lay.len) (h : a.type ∉ [1, 3, 5, 7, 9]) :
    pack32 room a m links (bins : Int) = .typeRefused := by
  unfold pack32
  rw [if_neg (by simpa using bins_range hu)]
  cases links with
  | none =>
    have e1 : (4 : Int) * ((bins : Int) + 1) = ((4 * (bins + 1) : Nat) : Int) := by push_cast; rfl
    simp only
    rw [e1, fmAlloc_gives hr, if_neg (by simp), keyType_none h]
  | some p =>
    obtain ⟨b, lm⟩ := p
    simp only
    rw [if_neg (by simpa using (hl b lm rfl).symm), keyType_none h]

/-! ## `GroupFromBinCount` -/

/-- The counts are of type int32, or int64 for more than 2000000000 rows. -/
def CountsOf (rows : Nat) (c : Arr) (cm : Mem) (counts : List Int) : Prop :=
  (rows ≤ 2000000000 → c.type = 5 ∧ Keys c .i32 cm counts) ∧ (rows > 2000000000 → c.type = 7 ∧ Keys c .i64 cm counts)

theorem counts_items {rows : Nat} {c : Arr} {cm : Mem} {counts : List Int} (h : CountsOf rows c cm counts) :
    c.type = outNo rows ∧ counts.length = c.lay.len ∧ items (outType rows) cm c.lay.len = some counts := by
  by_cases hr : rows > 2000000000
  · obtain ⟨h1, h2⟩ := h.2 hr
    unfold outNo outType
    rw [if_pos hr, if_pos hr]
    exact ⟨h1, keys_items h2⟩
  · obtain ⟨h1, h2⟩ := h.1 (by omega)
    unfold outNo outType
    rw [if_neg hr, if_neg hr]
    exact ⟨h1, keys_items h2⟩

/-- With the counts of the keys, the groups are packed, for every number of workers and every order of the steps. -/
theorem groups_from_counts {a c : Arr} {t : IT} {m cm : Mem} {keys counts : List Int} {fw workers : Nat} {nt : Bool} {calls : List Nat} {seq : List Ev}
    (k : Keys a t m keys) (q : CountsOf keys.length c cm counts)
    (hq : ∀ (b : Nat), b < counts.length → counts[b]? = some (keys.count (b : Int) : Int)) (hf : 0 < fw) (hn : keys.length < 2 ^ 63)
    (hc : CountedWork workers (packBands keys.length counts.length fw nt).length nt calls)
    (hs : Interleaves (calls.map (bandJobs keys counts (packBands keys.length counts.length fw nt))) seq) :
    ∃ group first, groupFromCount a m c cm fw nt seq = .ok (group, first) ∧ group.length = keys.length ∧
      Slices keys counts.length group first (counts.map some) := by
  obtain ⟨_, _, ht, _, _⟩ := keys_type k
  obtain ⟨hl, hi⟩ := keys_items k
  obtain ⟨h5, h6, h7⟩ := counts_items q
  have e : counts = trueCounts keys counts.length := by
    unfold trueCounts
    apply List.ext_getElem
    · simp
    · intro i h1 h2
      have := hq i h1
      rw [List.getElem?_eq_getElem h1] at this
      simp [Option.some.inj this]
  obtain ⟨group, g1, g2, g3⟩ := groupFromBinCount_slices (bins := counts.length) hf hn hc (by rw [← e]; exact hs)
  rw [← e] at g1 g3
  refine ⟨group, _, ?_, g2, g3⟩
  unfold groupFromCount
  rw [← hl, if_neg (by simpa using h5), h7]
  simp only
  rw [ht]
  simp only
  rw [hl, hi, Option.bind_some, g1]
  rfl

/-- Counts of another type are refused. -/
theorem count_type_refused (a c : Arr) (m cm : Mem) (fw : Nat) (nt : Bool) (seq : List Ev)
    (h : c.type ≠ if a.lay.len > 2000000000 then 7 else 5) : groupFromCount a m c cm fw nt seq = .typeRefused := by
  unfold groupFromCount outNo
  rw [if_pos h]

/-! ## `BinCount` -/

theorem binCountCall_runs {room : Nat → Bool} {a : Arr} {t : IT} {m : Mem} {keys : List Int} (k : Keys a t m keys) {bins fw : Nat} {pack nt : Bool}
    (calls : List Nat) (seq : List Ev) (hb : 0 < bins) (h0 : 0 < keys.length) (hr : ∃ b, fmAlloc room (coreBytes keys.length bins fw) = .mem b) :
    binCountCall room a m (bins : Int) pack nt fw calls seq = .of (countKernel t m a.lay.len bins fw pack nt calls seq) := by
  obtain ⟨_, _, ht, _, _⟩ := keys_type k
  obtain ⟨hl, hi⟩ := keys_items k
  obtain ⟨x, hx⟩ := hr
  rw [hl] at hx
  unfold binCountCall
  rw [if_neg (by omega), if_neg (by omega)]
  simp only [Int.toNat_natCast]
  rw [hx, if_neg (by simp), if_neg (by simp), ht]

/-- Enough memory for the counts of all cores: at most 31 of them, eight bytes each. -/
theorem coreBytes_gives {room : Nat → Bool} {rows bins fw : Nat} (hf : 0 < fw) (h : ∀ x, x ≤ 31 * bins * 8 → Gives room x) :
    ∃ b, fmAlloc room (coreBytes rows bins fw) = .mem b := by
  have h1 : (segmentBins rows fw 31).length ≤ 31 := (segmentBins_tile rows fw 31 hf).2.2.1 (by omega)
  have h2 : (outType rows).bits / 8 ≤ 8 := by unfold outType; split <;> decide
  refine ⟨_, fmAlloc_gives (h _ ?_)⟩
  exact Nat.mul_le_mul (Nat.mul_le_mul_right _ h1) h2

/-- The counts, for every number of workers and every order of the work items. -/
theorem counts_exact {room : Nat → Bool} {a : Arr} {t : IT} {m : Mem} {keys : List Int} {bins fw workers : Nat} {nt : Bool} {calls : List Nat}
    (k : Keys a t m keys) (seq : List Ev) (hb : 0 < bins) (h0 : 0 < keys.length) (hf : 0 < fw) (hr : ∀ x, x ≤ 31 * bins * 8 → Gives room x)
    (hc : CountedWork workers (segmentBins keys.length fw 31).length nt calls) :
    binCountCall room a m (bins : Int) false nt fw calls seq = .ok (.one ((List.range bins).map fun b : Nat => keys.count (b : Int))) := by
  rw [binCountCall_runs k calls seq hb h0 (coreBytes_gives hf hr)]
  obtain ⟨hl, hi⟩ := keys_items k
  unfold countKernel
  rw [hi, Option.bind_some, if_neg (by decide), binCount_exact hb h0 hf hc]
  rfl

/-- With `pack=True`: the counts, and the groups packed. -/
theorem counts_packed {room : Nat → Bool} {a : Arr} {t : IT} {m : Mem} {keys : List Int} {bins fw workers workers' : Nat} {nt : Bool}
    {calls calls' : List Nat} {seq : List Ev}
    (k : Keys a t m keys) (hb : 0 < bins) (h0 : 0 < keys.length) (hf : 0 < fw) (hr : ∀ x, x ≤ 31 * bins * 8 → Gives room x)
    (hc : CountedWork workers (segmentBins keys.length fw 31).length nt calls)
    (hc' : CountedWork workers' (segmentBins keys.length fw 31).length nt calls')
    (hs : Interleaves (calls'.map (packJob keys bins (segmentBins keys.length fw 31))) seq) :
    ∃ count group first, binCountCall room a m (bins : Int) true nt fw calls seq = .ok (.three (count, group, first)) ∧ group.length = keys.length ∧
      Slices keys bins group first count := by
  rw [binCountCall_runs k calls seq hb h0 (coreBytes_gives hf hr)]
  obtain ⟨hl, hi⟩ := keys_items k
  obtain ⟨group, g1, g2, g3⟩ := binCountPack_slices hb h0 hf hc hc' hs
  refine ⟨_, group, _, ?_, g2, g3⟩
  unfold countKernel
  rw [hi, Option.bind_some, if_pos rfl, g1]
  rfl

/-- Without groups or rows the call is refused. -/
theorem count_empty_refused (room : Nat → Bool) (a : Arr) (m : Mem) (unique : Int) (pack nt : Bool) (fw : Nat) (calls : List Nat) (seq : List Ev)
    (h : unique = 0 ∨ a.lay.len = 0) : binCountCall room a m unique pack nt fw calls seq = .noRows := by
  unfold binCountCall
  rw [if_pos h]

/-- A negative number of groups is refused by numpy. -/
theorem count_negative_refused (room : Nat → Bool) (a : Arr) (m : Mem) (unique : Int) (pack nt : Bool) (fw : Nat) (calls : List Nat) (seq : List Ev)
    (h : unique < 0) (hr : 0 < a.lay.len) : binCountCall room a m unique pack nt fw calls seq = .failed := by
  unfold binCountCall
  rw [if_neg (by omega), if_pos h]

end Riptide.Pack.Call
