import Verif.Rolling.Lemmas
import Verif.GroupBy.ValLemmas
import Verif.Pack.CountProps
/-! First, last, nth and the rolling functions over packed groups (C27, C28, C29, C59). -/
namespace Riptide.Rolling
open Spec Pack.Spec
open GroupBy (Val rndTo)

variable {T U S : Type}

/-! ## C27 -/

theorem perBin_run {bin : Int → Option (List (Int × T))} {val : Nat → T} {uniq lo hi : Nat}
    (hu : hi ≤ uniq) (h : ∀ b, lo ≤ b → b < hi → bin (b : Int) = some [((b : Int), val b)]) :
    ∃ out, (overBins bin lo hi).bind (store uniq) = some out ∧ out.length = uniq ∧
      (∀ b, lo ≤ b → b < hi → out[b]? = some (some (val b))) ∧
      ∀ b, b < uniq → b < lo ∨ hi ≤ b → out[b]? = some none := by
  obtain ⟨ws, e, L, hL, hm⟩ := overBins_run (lo := lo) (hi := hi)
    (M := fun b l => l = [((b : Int), val b)]) (fun b h1 h2 => ⟨_, h b h1 h2, rfl⟩)
  rw [e]
  have hmem : ∀ x, x ∈ ws ↔ ∃ b : Nat, lo ≤ b ∧ b < hi ∧ x = ((b : Int), val b) := by
    intro x
    rw [hm]
    constructor
    · rintro ⟨b, h1, h2, hx⟩
      rw [hL b h1 h2] at hx
      exact ⟨b, h1, h2, by simpa using hx⟩
    · rintro ⟨b, h1, h2, hx⟩
      exact ⟨b, h1, h2, by rw [hL b h1 h2]; simpa using hx⟩
  obtain ⟨out, ho, hl, hg, hn⟩ := store_get (n := uniq) (ws := ws)
    (fun w hw => by
      obtain ⟨b, _, _, rfl⟩ := (hmem w).1 hw
      exact ⟨b, rfl, by omega⟩)
    (fun w hw w' hw' he => by
      obtain ⟨b, _, _, rfl⟩ := (hmem w).1 hw
      obtain ⟨b', _, _, rfl⟩ := (hmem w').1 hw'
      have he : (b : Int) = (b' : Int) := he
      have : b = b' := by omega
      rw [this])
  refine ⟨out, ho, hl, fun b h1 h2 => hg b _ ((hmem _).2 ⟨b, h1, h2, rfl⟩), fun b hb hr => hn b hb ?_⟩
  intro w hw he
  obtain ⟨b', h1, h2, rfl⟩ := (hmem w).1 hw
  have he : (b' : Int) = (b : Int) := he
  omega

theorem srcAt_group {keys : List Int} {src : List T} {P : Packed} {b : Nat} {f : Int}
    (hl : src.length = keys.length) (hB : BinAt P (b : Int) (rowsOf keys b) f) {k : Nat}
    (hk : k < (rowsOf keys b).length) :
    ∃ v, srcAt src P (f + k) = some v ∧ (groupVals keys src b)[k]? = some v := by
  have hr : (rowsOf keys b)[k]? = some (rowsOf keys b)[k] := List.getElem?_eq_getElem hk
  have hlt : (rowsOf keys b)[k] < src.length := by have := rowsOf_lt hr; omega
  refine ⟨src[(rowsOf keys b)[k]], ?_, ?_⟩
  · unfold srcAt
    rw [hB.group k _ hr]
    show rdS src _ = _
    rw [rdS_nat, List.getElem?_eq_getElem hlt]
  · rw [(groupVals_eq hl b).2 k _ hr, List.getElem?_eq_getElem hlt]

theorem nthBin_eq {keys : List Int} {src : List T} {P : Packed} {b : Nat} {f : Int} (inv : T) (n : Int)
    (hl : src.length = keys.length) (hB : BinAt P (b : Int) (rowsOf keys b) f) :
    nthBin inv src P n (b : Int) = some [((b : Int),
      (((nthPos n (groupVals keys src b).length).bind fun p => (groupVals keys src b)[p]?).getD inv))] := by
  have hlen := (groupVals_eq (src := src) hl b).1
  unfold nthBin
  rw [hB.count]
  simp only [Option.bind_some]
  split
  · next h =>
    obtain ⟨h1, h2, h3⟩ := h
    have e : nthIndex n (rowsOf keys b).length = ((nthIndex n (rowsOf keys b).length).toNat : Int) := by
      omega
    have hp : nthPos n (groupVals keys src b).length =
        some (nthIndex n (rowsOf keys b).length).toNat := by
      unfold nthPos nthIndex
      unfold nthIndex at h2 h3
      rw [hlen]
      split
      · next h0 => rw [if_pos h0] at h2 h3; rw [if_pos h3]
      · next h0 => rw [if_neg h0] at h2 h3; rw [if_pos h2]
    obtain ⟨v, hv, hg⟩ := srcAt_group (src := src) hl hB
      (k := (nthIndex n (rowsOf keys b).length).toNat) (by omega)
    rw [hB.first]
    simp only [Option.bind_some]
    rw [e, hv, hp]
    simp only [Option.bind_some]
    rw [hg]
    rfl
  · next h =>
    have hp : nthPos n (groupVals keys src b).length = none := by
      unfold nthPos
      rw [hlen]
      unfold nthIndex at h
      split
      · next h0 =>
        rw [if_pos h0] at h
        rw [if_neg]
        intro hc
        exact h ⟨by omega, h0, hc⟩
      · next h0 =>
        rw [if_neg h0] at h
        rw [if_neg]
        intro hc
        exact h ⟨by omega, hc, by omega⟩
    rw [hp]
    rfl

theorem firstBin_nth (inv : T) (src : List T) (P : Packed) (i : Int) :
    firstBin inv src P i = nthBin inv src P 0 i := by
  unfold firstBin nthBin
  congr 1
  funext c
  unfold nthIndex
  have h0 : (0 : Int) ≤ 0 := by omega
  by_cases hc : 0 < c
  · rw [if_pos hc, if_pos ⟨hc, by rw [if_pos h0]; exact h0, by rw [if_pos h0]; exact hc⟩, if_pos h0]
    congr 1
    funext f
    rw [show f + 0 = f by omega]
  · rw [if_neg hc, if_neg fun h => hc h.1]

theorem lastBin_nth (inv : T) (src : List T) (P : Packed) (i : Int) :
    lastBin inv src P i = nthBin inv src P (-1) i := by
  unfold lastBin nthBin
  congr 1
  funext c
  unfold nthIndex
  have h0 : ¬ (0 : Int) ≤ -1 := by omega
  by_cases hc : 0 < c
  · rw [if_pos hc, if_pos ⟨hc, by rw [if_neg h0]; omega, by rw [if_neg h0]; omega⟩, if_neg h0]
    congr 1
    funext f
    rw [show f + c - 1 = f + (c + -1) by omega]
  · rw [if_neg hc, if_neg fun h => hc h.1]

/-- **C27**, nth: bin `b` gets the value at position `n` of the group (from the end when `n` is
negative), or the invalid value if the group has no such row.  Bins outside `[lo, hi)` are not
written. -/
theorem accumNth_value {keys : List Int} {src : List T} {P : Packed} {bins uniq lo hi : Nat}
    (hS : Slices keys bins P.group P.first P.count) (hl : src.length = keys.length)
    (hu : hi ≤ uniq) (hb : hi ≤ bins) (inv : T) (n : Int) :
    ∃ out, accumNth inv src P n uniq lo hi = some out ∧ out.length = uniq ∧
      (∀ b, lo ≤ b → b < hi → out[b]? = some (some
        (((nthPos n (groupVals keys src b).length).bind fun p => (groupVals keys src b)[p]?).getD inv))) ∧
      ∀ b, b < uniq → b < lo ∨ hi ≤ b → out[b]? = some none :=
  perBin_run hu fun b _ h2 => by
    obtain ⟨f, hB⟩ := binAt_of_slices hS (show b < bins by omega)
    exact nthBin_eq inv n hl hB

/-- **C27**, first: bin `b` gets the first value of the group, or invalid if it is empty. -/
theorem accumFirst_value {keys : List Int} {src : List T} {P : Packed} {bins uniq lo hi : Nat}
    (hS : Slices keys bins P.group P.first P.count) (hl : src.length = keys.length)
    (hu : hi ≤ uniq) (hb : hi ≤ bins) (inv : T) :
    ∃ out, accumFirst inv src P uniq lo hi = some out ∧ out.length = uniq ∧
      (∀ b, lo ≤ b → b < hi → out[b]? = some (some ((groupVals keys src b).head?.getD inv))) ∧
      ∀ b, b < uniq → b < lo ∨ hi ≤ b → out[b]? = some none :=
  perBin_run hu fun b _ h2 => by
    obtain ⟨f, hB⟩ := binAt_of_slices hS (show b < bins by omega)
    rw [firstBin_nth, nthBin_eq inv 0 hl hB]
    cases groupVals keys src b with
    | nil => rfl
    | cons x xs =>
      have : nthPos 0 (x :: xs).length = some 0 := by
        unfold nthPos
        rw [if_pos (by omega), if_pos (by rw [List.length_cons]; omega)]
        rfl
      rw [this]
      rfl

/-- **C27**, last. -/
theorem accumLast_value {keys : List Int} {src : List T} {P : Packed} {bins uniq lo hi : Nat}
    (hS : Slices keys bins P.group P.first P.count) (hl : src.length = keys.length)
    (hu : hi ≤ uniq) (hb : hi ≤ bins) (inv : T) :
    ∃ out, accumLast inv src P uniq lo hi = some out ∧ out.length = uniq ∧
      (∀ b, lo ≤ b → b < hi → out[b]? = some (some ((groupVals keys src b).getLast?.getD inv))) ∧
      ∀ b, b < uniq → b < lo ∨ hi ≤ b → out[b]? = some none :=
  perBin_run hu fun b _ h2 => by
    obtain ⟨f, hB⟩ := binAt_of_slices hS (show b < bins by omega)
    rw [lastBin_nth, nthBin_eq inv (-1) hl hB]
    generalize groupVals keys src b = l
    have : ((nthPos (-1) l.length).bind fun p => l[p]?) = l.getLast? := by
      rw [List.getLast?_eq_getElem?]
      unfold nthPos
      rw [if_neg (by omega)]
      split
      · next h =>
        have : ((l.length : Int) + -1).toNat = l.length - 1 := by omega
        rw [this]; rfl
      · next h =>
        have : l = [] := List.eq_nil_of_length_eq_zero (by omega)
        subst this; rfl
    rw [this]

/-- Three groups: bin 0 is empty with start -1, bin 1 has rows 0, 2, 3, bin 2 has row 1. -/
def exPacked : Packed :=
  ⟨.i32, [some 0, some 2, some 3, some 1], [some (-1), some 0, some 3], [some 0, some 3, some 1]⟩

theorem exPacked_slices :
    Slices [1, 2, 1, 1] 3 exPacked.group exPacked.first exPacked.count := by
  intro b hb
  have h3 : b = 0 ∨ b = 1 ∨ b = 2 := by omega
  rcases h3 with rfl | rfl | rfl
  · exact ⟨-1, rfl, by decide, fun j r h => by
      rw [show rowsOf [1, 2, 1, 1] 0 = [] by decide] at h; simp at h⟩
  · refine ⟨0, rfl, by decide, fun j r h => ?_⟩
    rw [show rowsOf [1, 2, 1, 1] 1 = [0, 2, 3] by decide] at h
    match j, h with
    | 0, h => cases h; exact ⟨0, rfl, rfl⟩
    | 1, h => cases h; exact ⟨1, rfl, rfl⟩
    | 2, h => cases h; exact ⟨2, rfl, rfl⟩
  · refine ⟨3, rfl, by decide, fun j r h => ?_⟩
    rw [show rowsOf [1, 2, 1, 1] 2 = [1] by decide] at h
    match j, h with
    | 0, h => cases h; exact ⟨3, rfl, rfl⟩

example : accumNth (-128) [10, 20, 30, 40] exPacked (-2) 3 0 3 =
    some [some (-128), some 30, some (-128)] := by decide
example : accumFirst (-128) [10, 20, 30, 40] exPacked 3 0 3 =
    some [some (-128), some 10, some 20] := by decide
example : accumLast (-128) [10, 20, 30, 40] exPacked 3 1 3 = some [none, some 40, some 20] := by decide

/-! ## Groupings for the rolling functions -/

/-- What the rolling functions rely on without checking: correctly packed groups covering all rows,
with starts inside the array (-1 for an empty bin is allowed), and a window so small that positions
plus window stay in the type of the index arrays. -/
structure Grouped (keys : List Int) (bins : Nat) (P : Packed) (w : Nat) : Prop where
  vt : P.vt = .i32 ∨ P.vt = .i64
  pos : 0 < bins
  keysIn : ∀ (i : Nat) (k : Int), keys[i]? = some k → 0 ≤ k ∧ k < (bins : Int)
  len : P.group.length = keys.length
  slices : Slices keys bins P.group P.first P.count
  starts : ∀ (b : Nat) (f : Int), b < bins → P.first[b]? = some (some f) → -1 ≤ f ∧ f ≤ (keys.length : Int)
  small : (keys.length : Int) + w < P.vt.hi

/-- Groups packed by counting (`groupFromBinCount`) qualify. -/
theorem grouped_of_counts {keys : List Int} {bins : Nat} {group : List (Option Int)} {vt : IT} {w : Nat}
    (hvt : vt = .i32 ∨ vt = .i64) (hb : 0 < bins)
    (hk : ∀ (i : Nat) (k : Int), keys[i]? = some k → 0 ≤ k ∧ k < (bins : Int))
    (hw : (keys.length : Int) + w < vt.hi) (hl : group.length = keys.length)
    (hS : Slices keys bins group ((List.range bins).map fun b : Nat => some (Pack.before keys b : Int))
      ((Pack.trueCounts keys bins).map some)) :
    Grouped keys bins ⟨vt, group, (List.range bins).map fun b : Nat => some (Pack.before keys b : Int),
      (Pack.trueCounts keys bins).map some⟩ w := by
  refine ⟨hvt, hb, hk, hl, hS, fun b f hb' hf => ?_, hw⟩
  rw [List.getElem?_map, List.getElem?_range hb'] at hf
  have : (Pack.before keys b : Int) = f := by simpa using hf
  have h2 := Pack.before_le keys b
  omega

theorem exPacked_grouped : Grouped [1, 2, 1, 1] 3 exPacked 100 := by
  refine ⟨.inl rfl, by omega, ?_, rfl, exPacked_slices, ?_, by decide⟩
  · intro i k h
    have hm := List.mem_of_getElem? h
    simp at hm
    omega
  · intro b f hb hf
    have h3 : b = 0 ∨ b = 1 ∨ b = 2 := by omega
    rcases h3 with rfl | rfl | rfl <;> (have := Option.some.inj (Option.some.inj hf); simp at *; omega)

/-- Positions and window stay in range. -/
theorem grouped_fits {keys : List Int} {bins : Nat} {P : Packed} {w : Nat} (hG : Grouped keys bins P w)
    {b : Nat} (hb : b < bins) :
    ∃ f, BinAt P (b : Int) (rowsOf keys b) f ∧
      (IT.i64.lo ≤ f + w ∧ f + w ≤ IT.i64.hi) ∧ P.vt.wrap (f + w) = f + w ∧
      (IT.i64.lo ≤ f + (rowsOf keys b).length - 1 + -(w : Int) ∧
        f + (rowsOf keys b).length - 1 + -(w : Int) ≤ IT.i64.hi) ∧
      P.vt.wrap (f + (rowsOf keys b).length - 1 + -(w : Int)) =
        f + (rowsOf keys b).length - 1 + -(w : Int) := by
  obtain ⟨f, h1, h2, h3⟩ := hG.slices b hb
  have hB : BinAt P (b : Int) (rowsOf keys b) f := by
    refine ⟨rd_nat h1, rd_nat h2, fun k r hk => ?_⟩
    obtain ⟨p, e, hp⟩ := h3 k r hk
    rw [← e]
    exact rd_nat hp
  obtain ⟨hf1, hf2⟩ := hG.starts b f hb h1
  have hlast : f + (rowsOf keys b).length ≤ (keys.length : Int) := by
    by_cases h0 : (rowsOf keys b).length = 0
    · omega
    · have hlt : (rowsOf keys b).length - 1 < (rowsOf keys b).length := by omega
      obtain ⟨p, e, hp⟩ := h3 _ _ (List.getElem?_eq_getElem hlt)
      have := (List.getElem?_eq_some_iff.1 hp).1
      have := hG.len
      omega
  have hs := hG.small
  have hr : P.vt.InRange (f + w) ∧ P.vt.InRange (f + (rowsOf keys b).length - 1 + -(w : Int)) ∧
      0 < P.vt.bits ∧ IT.i64.lo ≤ P.vt.lo ∧ P.vt.hi ≤ IT.i64.hi := by
    unfold IT.InRange
    rcases hG.vt with h | h <;> rw [h] at hs ⊢
    · have e1 : IT.i32.hi = 2147483647 := by decide
      have e2 : IT.i32.lo = -2147483648 := by decide
      have e3 : IT.i64.hi = 9223372036854775807 := by decide
      have e4 : IT.i64.lo = -9223372036854775808 := by decide
      have e5 : IT.i32.bits = 32 := rfl
      omega
    · have e3 : IT.i64.hi = 9223372036854775807 := by decide
      have e4 : IT.i64.lo = -9223372036854775808 := by decide
      have e5 : IT.i64.bits = 64 := rfl
      omega
  obtain ⟨r1, r2, hbits, h5, h6⟩ := hr
  refine ⟨f, hB, ?_, IT.wrap_of_inRange _ hbits r1, ?_, IT.wrap_of_inRange _ hbits r2⟩
  · unfold IT.InRange at r1; omega
  · unfold IT.InRange at r2; omega

/-! ## Windows -/

theorem window_prime {vals : List T} {w k : Nat} {x : T} (hk : k < w) (hx : vals[k]? = some x) :
    vals.take (k + 1 - w) = [] ∧ window vals w k = (vals.take k).drop (k - w) ++ [x] := by
  have h1 : k + 1 - w = 0 := by omega
  have h2 : k - w = 0 := by omega
  unfold window
  rw [h1, h2]
  refine ⟨rfl, ?_⟩
  rw [List.drop_zero, List.drop_zero, List.take_add_one, hx]
  rfl

theorem window_slide {vals : List T} {w k : Nat} {x : T} (hk : w ≤ k) (hx : vals[k]? = some x) :
    ∃ y, vals[k - w]? = some y ∧
      (vals.take k).drop (k - w) ++ [x] = y :: window vals w k ∧
      vals.take (k + 1 - w) = vals.take (k - w) ++ [y] := by
  have hlt := (List.getElem?_eq_some_iff.1 hx).1
  have hlt' : k - w < vals.length := by omega
  have h1 : k + 1 - w = k - w + 1 := by omega
  refine ⟨vals[k - w], List.getElem?_eq_getElem hlt', ?_, ?_⟩
  · unfold window
    have e : vals.take k ++ [x] = vals.take (k + 1) := by rw [List.take_add_one, hx]; rfl
    rw [h1]
    have h2 : k - w < (vals.take (k + 1)).length := by rw [List.length_take]; omega
    have : (vals.take (k + 1)).drop (k - w) = vals[k - w] :: (vals.take (k + 1)).drop (k - w + 1) := by
      rw [List.drop_eq_getElem_cons h2]
      congr 1
      rw [List.getElem_take]
    rw [← this, ← e, List.drop_append_of_le_length (by rw [List.length_take]; omega)]
  · rw [h1, List.take_add_one, List.getElem?_eq_getElem hlt']
    rfl

/-- A running total kept as a function `abs` of the values before the window and in the window. -/
structure Keeps (R : Run T S U) (vals : List T) (abs : List T → List T → S) : Prop where
  zero : R.zero = abs [] []
  push : ∀ pre w x post, vals = pre ++ w ++ x :: post → R.push (abs pre w) x = abs pre (w ++ [x])
  pop : ∀ pre y w post, vals = pre ++ y :: w ++ post → R.pop (abs pre (y :: w)) y = abs (pre ++ [y]) w

/-- One bin of a rolling kernel. -/
theorem runBin_run {R : Run T S U} {abs : List T → List T → S} {keys : List Int} {src : List T}
    {bins : Nat} {P : Packed} {w : Nat} (hG : Grouped keys bins P w) (hl : src.length = keys.length)
    {b : Nat} (hb : b < bins) (hK : Keeps R (groupVals keys src b) abs) :
    ∃ l, runBin R src P w (b : Int) = some l ∧ BinWrites (rowsOf keys b)
      (fun k => R.emit (abs ((groupVals keys src b).take (k + 1 - w)) (window (groupVals keys src b) w k))
        ((min (k + 1) w : Nat) : Int)) l := by
  obtain ⟨f, hB, h64, hV, _, _⟩ := grouped_fits hG hb
  obtain ⟨hlen, hval⟩ := groupVals_eq (src := src) hl b
  unfold runBin
  rw [hB.first]
  simp only [Option.bind_some]
  generalize hvals : groupVals keys src b = vals at *
  have hx : ∀ (k r : Nat), (rowsOf keys b)[k]? = some r → ∃ x, rdS src (r : Int) = some x ∧ vals[k]? = some x := by
    intro k r hr
    have hlt : r < src.length := by have := rowsOf_lt hr; omega
    refine ⟨src[r], ?_, ?_⟩
    · rw [rdS_nat, List.getElem?_eq_getElem hlt]
    · rw [hval k r hr, List.getElem?_eq_getElem hlt]
  refine forward_run hB w h64 hV
    (fun k s => s = abs (vals.take (k - w)) ((vals.take k).drop (k - w))) _ R.zero ?_ ?_ ?_
  · rw [hK.zero]; simp
  · intro k hk s r hr hs
    obtain ⟨x, hx1, hx2⟩ := hx k r hr
    obtain ⟨e1, e2⟩ := window_prime hk hx2
    have hpush : R.push s x = abs (vals.take (k + 1 - w)) (window vals w k) := by
      rw [hs, hK.push _ _ x (vals.drop (k + 1)), ← e2, e1]
      · congr 1
        rw [show k - w = 0 by omega]; rfl
      · rw [show k - w = 0 by omega]
        have hlt := (List.getElem?_eq_some_iff.1 hx2).1
        have : x :: vals.drop (k + 1) = vals.drop k := by
          rw [List.drop_eq_getElem_cons hlt]
          congr 1
          exact ((List.getElem?_eq_some_iff.1 hx2).2).symm
        rw [this]
        simp
    refine ⟨R.push s x, ?_, ?_⟩
    · unfold primeStep
      rw [hx1]
      show some (R.push s x, R.emit (R.push s x) (f + (k : Int) - f + 1)) = _
      rw [hpush, show f + (k : Int) - f + 1 = ((min (k + 1) w : Nat) : Int) by omega]
    · rw [hpush]; rfl
  · intro k hk s r hr hs
    obtain ⟨x, hx1, hx2⟩ := hx k r hr
    obtain ⟨y, hy, e1, e2⟩ := window_slide hk hx2
    have hlt := (List.getElem?_eq_some_iff.1 hx2).1
    have hpop : R.pop (R.push s x) y = abs (vals.take (k + 1 - w)) (window vals w k) := by
      have hcat : vals = vals.take (k - w) ++ (vals.take k).drop (k - w) ++ x :: vals.drop (k + 1) := by
        have h1 : x :: vals.drop (k + 1) = vals.drop k := by
          rw [List.drop_eq_getElem_cons hlt]
          congr 1
          exact ((List.getElem?_eq_some_iff.1 hx2).2).symm
        have h2 : vals.take (k - w) = (vals.take k).take (k - w) := by
          rw [List.take_take]; congr 1; omega
        rw [h1, h2, List.take_append_drop, List.take_append_drop]
      rw [hs, hK.push _ _ x _ hcat, e1, hK.pop _ y _ (vals.drop (k + 1)), ← e2]
      rw [← e1]
      simpa using hcat
    have hsrc : srcAt src P (f + (k : Int) - w) = some y := by
      obtain ⟨v, hv1, hv2⟩ := srcAt_group (src := src) hl hB (k := k - w) (by omega)
      rw [hvals] at hv2
      rw [hy] at hv2
      have e : f + (k : Int) - w = f + ((k - w : Nat) : Int) := by omega
      rw [e, hv1, hv2]
    refine ⟨R.pop (R.push s x) y, ?_, ?_⟩
    · unfold slideStep
      rw [hx1]
      simp only [Option.bind_some]
      rw [hsrc]
      show some (R.pop (R.push s x) y, R.emit (R.pop (R.push s x) y) w) = _
      rw [hpop, show (w : Int) = ((min (k + 1) w : Nat) : Int) by omega]
    · rw [hpop]; rfl

/-- A rolling kernel over all groups. -/
theorem accumRolling_run {R : Run T S U} {abs : List T → List T → S} {keys : List Int} {src : List T}
    {bins : Nat} {P : Packed} {w : Nat} (hG : Grouped keys bins P w) (hl : src.length = keys.length)
    (inv : U) (hK : ∀ b, 1 ≤ b → b < bins → Keeps R (groupVals keys src b) abs) :
    ∃ out, accumRolling R inv src P w 0 bins = some out ∧ out.length = keys.length ∧
      (∀ b k r, b < bins → (rowsOf keys b)[k]? = some r → out[r]? = some (some (if b = 0 then inv else
        R.emit (abs ((groupVals keys src b).take (k + 1 - w)) (window (groupVals keys src b) w k))
          ((min (k + 1) w : Nat) : Int)))) ∧
      ∀ r, r < keys.length → ∃ v, out[r]? = some (some v) := by
  obtain ⟨ws, e, out, ho, h1, h2, h3⟩ := rolling_run hG.pos hG.slices hG.keysIn inv (runBin R src P w)
    (fun b k => R.emit (abs ((groupVals keys src b).take (k + 1 - w)) (window (groupVals keys src b) w k))
      ((min (k + 1) w : Nat) : Int)) fun b hb1 hb2 => runBin_run hG hl hb2 (hK b hb1 hb2)
  refine ⟨out, ?_, h1, h2, h3⟩
  unfold accumRolling
  rw [if_neg (by omega), e]
  simp only [Option.bind_some]
  rw [hl]
  exact ho

end Riptide.Rolling
