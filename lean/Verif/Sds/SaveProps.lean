import Verif.Sds.SaveLemmas
import Verif.Sds.FileProps
/-! # C153: arrays which are saved come back -/
namespace Riptide.Sds.Save
open Riptide.Nums (Mem memOf Bits HasBits Has AllAt)
open Riptide.Nums.Info
open Riptide.Mask.Call.Spec (inC)
open Riptide.Sds.Save.Spec

/-! ### One array -/

/-- What a file says of an array. -/
def outOf (a : ArrIn) : OutArr := ⟨a.arr.dims, a.arr.item, a.dtype, a.flags, a.strides, some a.arr.data⟩

theorem flagsOf_lt (l : Binary.Lay) : flagsOf l < 2 ^ 32 := by
  unfold flagsOf
  split <;> split <;> omega

/-- An array without bands can be kept in a file. -/
theorem ok_of {c : Codec} {z : Bool} {y : ArrIn} (h1 : y.arr.Ok) (h2 : y.strides.length = y.arr.dims.length) (h3 : y.dtype < 2 ^ 8)
    (h4 : y.arr.item < 2 ^ 32) (h5 : y.flags < 2 ^ 32) (h6 : ∀ d ∈ y.arr.dims, d < 2 ^ 64) (h7 : ∀ d ∈ y.strides, d < 2 ^ 64) : y.Ok c z 0 := by
  obtain ⟨bs', e⟩ := write_plain c z 0 y.arr 0 (.inr (.inl rfl))
  exact ⟨h1, h2, h3, h4, h5, h6, h7, by rw [e]; show 0 < 2 ^ 32; decide, by rw [e]; simp⟩

/-- Packed items which are written and read again are the same. -/
theorem packed_back {a b : Nums.Arr} {m mb : Mem} (h : Fit a m) (hp : Packed a m b mb) {d : List Nat} (hd : d.length = b.lay.len * b.lay.item)
    (hm : ∀ k : Nat, k < b.lay.len * b.lay.item → memOf 0 (d.map (BitVec.ofNat 8)) (k : Int) = mb (k : Int)) :
    ∃ r, loadArr ⟨b.lay.dims, b.lay.item, b.type, flagsOf b.lay, b.lay.strides.map pattern, some d⟩ = some r ∧ Back (.array a m) r := by
  have hne : b.lay.dims ≠ [] := by
    intro e
    have := h.some
    rw [← hp.dims, e] at this
    exact absurd this (by decide)
  have hob : fixType b.type b.lay.item ≠ 17 := by
    have := h.noObject
    rw [← hp.type] at this
    unfold fixType
    split
    · split <;> omega
    · split
      · split <;> omega
      · exact this
  have hsz : ¬ Sds.prod b.lay.dims * b.lay.item < d.length := by
    rw [prod_eq, hd]
    exact Nat.lt_irrefl _
  have hst : (b.lay.strides.map pattern).map unpattern = b.lay.strides := by
    rw [List.map_map]
    conv => rhs; rw [← List.map_id b.lay.strides]
    apply List.map_congr_left
    intro s hs
    exact unpattern_pattern (hp.dists s hs)
  refine ⟨some (⟨fixType b.type b.lay.item, ⟨b.lay.dims, b.lay.strides, b.lay.item⟩, false⟩, memOf 0 (d.map (BitVec.ofNat 8))), ?_, _, _, rfl, ?_,
    hp.dims, hp.item, rfl, ?_⟩
  · simp only [loadArr, if_neg hne, if_neg hob, if_neg hsz, madeOf, hst]
  · unfold SameType fixType
    rw [hp.type, hp.item]
  · intro vs hv
    have h1 := hp.same vs hv
    unfold Bits at h1 ⊢
    rw [hp.native] at h1
    refine allAt_mono h1 fun o ho x hx => hasBits_congr (fun j hj => ?_) hx
    obtain ⟨g1, g2⟩ := hp.inside o ho
    rw [← hp.item] at hj
    have e : o + (j : Int) = (((o + j).toNat : Nat) : Int) := by omega
    rw [e]
    exact hm _ (by omega)

/-- One item of the list: it is accepted, it has a description which can be written, and it comes back. -/
theorem info_back (c : Codec) (z : Bool) {x : Arg} (h : Savable x) :
    (∃ e, entry false true true x = .ok e) ∧ ∃ y, info true x = some y ∧ y.Ok c z 0 ∧ Sds.prod y.arr.dims * y.arr.item = size x ∧
      ∃ r, loadArr (outOf y) = some r ∧ Back x r := by
  match x, h with
  | .pyNone, _ =>
    refine ⟨⟨_, rfl⟩, _, rfl, ok_of ⟨by decide, by decide, by decide⟩ rfl (by simp only; decide) (by simp only; decide) (by simp only; decide) (by simp)
      (by simp), by simp [size], none, rfl, rfl⟩
  | .array a m, h =>
    obtain ⟨b, mb, cp, ht, hp⟩ := taken_packed h
    obtain ⟨d, hb, hd, hm⟩ := bytesAt_some hp.there
    have hlen : b.lay.len = a.lay.len := by unfold Binary.Lay.len; rw [hp.dims]
    have h1 := h.some
    have h5 := h.few
    have hty := h.type
    have hit := h.item
    have hsz := h.size
    refine ⟨?_, ⟨⟨b.lay.dims, b.lay.item, d⟩, b.type, flagsOf b.lay, b.lay.strides.map pattern⟩, ?_,
      ok_of ⟨?_, ?_, ?_⟩ ?_ ?_ ?_ (flagsOf_lt _) ?_ ?_, ?_, ?_⟩
    · simp only [entry, ht, entryOf]
      rw [if_neg (by rw [hp.type]; omega)]
      have hl := hp.strides
      rw [hp.dims] at hl
      cases hs : b.lay.strides with
      | nil => rw [hs] at hl; rw [← hl] at h1; exact absurd h1 (by decide)
      | cons s ss =>
        simp only
        rw [if_neg (by simp)]
        split
        · next hq =>
          have := hp.first hq.2.2 hq.2.1
          rw [hs] at this
          simp only [List.head?_cons, Option.some.injEq] at this
          exact absurd this hq.1
        · exact ⟨_, rfl⟩
    · simp only [info, ht, hb]; rfl
    · simp only; rw [hp.dims]; exact h5
    · simp only; rw [hd, prod_eq]; rfl
    · simp only; rw [hd, hlen, hp.item]; exact hsz
    · simp only [List.length_map]; exact hp.strides
    · simp only; rw [hp.type]; omega
    · simp only; rw [hp.item]; omega
    · simp only; rw [hp.dims]; intro d hd'; have := h.dims d hd'; omega
    · simp only [List.mem_map]; rintro _ ⟨s, _, rfl⟩; exact pattern_lt s
    · simp only [size]; rw [prod_eq, hp.item, ← hlen]; rfl
    · exact packed_back h hp hd hm

/-! ### All of them -/

theorem infos_back (c : Codec) (z : Bool) {room : Nat → Bool} (hr : ∀ i, room i = true) : ∀ (l : List Arg), (∀ x ∈ l, Savable x) → ∀ i,
    (∃ es, entries false true room i l = .ok es) ∧ ∃ ys, infos room i l = some ys ∧ ys.length = l.length ∧ (∀ y ∈ ys, y.Ok c z 0) ∧
      (ys.map fun y => Sds.prod y.arr.dims * y.arr.item) = l.map size ∧ ∃ rs, (ys.map outOf).mapM loadArr = some rs ∧ AllBack l rs
  | [], _, _ => ⟨⟨_, rfl⟩, [], rfl, rfl, by simp, rfl, [], rfl, trivial⟩
  | x :: l, h, i => by
    obtain ⟨⟨e, he⟩, y, hy, hok, hs, r, hl, hb⟩ := info_back c z (h x (by simp))
    obtain ⟨⟨es, hes⟩, ys, hys, hn, hoks, hss, rs, hls, hbs⟩ := infos_back c z hr l (fun x' hx => h x' (by simp [hx])) (i + 1)
    refine ⟨⟨e :: es, ?_⟩, y :: ys, ?_, by simp [hn], ?_, by simp [hs, hss], r :: rs, ?_, hb, hbs⟩
    · simp only [entries, hr i, he, hes]
    · simp only [infos, hr i, hy, hys, Option.bind_some, Option.map_some]
    · intro y' hy'
      rcases List.mem_cons.1 hy' with rfl | hy'
      · exact hok
      · exact hoks y' hy'
    · rw [List.map_cons, List.mapM_cons, hl, hls]; rfl

/-! ### The end of the file -/

theorem stored_le {c : Codec} {x : Input} (h0 : x.bandSize = 0) (hx : ∀ y ∈ x.arrays, y.arr.Ok) {i : Nat} (hi : i < x.arrays.length) :
    x.stored c i ≤ Sds.prod (x.arrayAt i).arr.dims * (x.arrayAt i).arr.item := by
  have hm : x.arrayAt i ∈ x.arrays := by
    have : x.arrayAt i = x.arrays[i] := by simp [Input.arrayAt, List.getD, hi]
    rw [this]; exact List.getElem_mem hi
  obtain ⟨bs', e⟩ := write_plain c x.zstd 0 (x.arrayAt i).arr 0 (.inr (.inl rfl))
  unfold Input.stored
  rw [h0, e, ← (hx _ hm).bytes]
  simp only
  split
  · exact pack_length _ _ _
  · exact Nat.le_refl _

theorem sum_le_sum {α : Type} (f g : α → Nat) : ∀ (l : List α), (∀ i ∈ l, f i ≤ g i) → (l.map f).sum ≤ (l.map g).sum
  | [], _ => Nat.le_refl _
  | a :: l, h => by
    have h1 := h a (by simp)
    have h2 := sum_le_sum f g l fun i hi => h i (by simp [hi])
    simp only [List.map_cons, List.sum_cons]
    omega

theorem sum_add_const {α : Type} (f : α → Nat) (k : Nat) : ∀ (l : List α), (l.map fun i => f i + k).sum = (l.map f).sum + k * l.length
  | [] => rfl
  | a :: l => by
    simp only [List.map_cons, List.sum_cons, List.length_cons, sum_add_const f k l, Nat.mul_add, Nat.mul_one]
    omega

theorem padTo_lt (n : Nat) : padTo n ≤ n + 511 := by unfold padTo; omega

/-- Without bands no file is longer than its parts and what fills them up. -/
theorem end_le {c : Codec} {x : Input} (h0 : x.bandSize = 0) (hx : ∀ y ∈ x.arrays, y.arr.Ok) {order : List Nat}
    (ho : order.Perm (List.range x.arrays.length)) (mC : Nat) : x.fileEnd c 0 mC order ≤
      2045 + x.names.length + mC + 639 * x.arrays.length + (x.arrays.map fun a => Sds.prod a.arr.dims * a.arr.item).sum := by
  have hn := padTo_lt x.names.length
  have hm := padTo_lt mC
  have hb := padTo_lt (x.arrays.length * 128)
  have hf : (fillHeader 0 x mC).first = 512 + 0 + padTo x.names.length + padTo mC + padTo (x.arrays.length * 128) := rfl
  have e2 : ((List.range x.arrays.length).map fun i => Sds.prod (x.arrayAt i).arr.dims * (x.arrayAt i).arr.item) =
      x.arrays.map fun a => Sds.prod a.arr.dims * a.arr.item := by
    apply List.ext_getElem (by simp)
    intro i h1 h2
    simp only [List.length_map, List.length_range] at h1
    simp [Input.arrayAt, List.getD, h1]
  have h1 : (order.map fun j => padTo (x.stored c j)).sum ≤ (x.arrays.map fun a => Sds.prod a.arr.dims * a.arr.item).sum + 511 * x.arrays.length := by
    rw [(ho.map fun j => padTo (x.stored c j)).sum_nat, ← e2]
    refine Nat.le_trans (sum_le_sum _ (fun i => Sds.prod (x.arrayAt i).arr.dims * (x.arrayAt i).arr.item + 511) _ fun i hi => ?_) ?_
    · have := stored_le (c := c) h0 hx (List.mem_range.1 hi)
      have := padTo_lt (x.stored c i)
      omega
    · rw [sum_add_const, List.length_range]
      exact Nat.le_refl _
  unfold Input.fileEnd
  rw [allocTotal_sum, hf]
  omega

/-! ### Saving and loading -/

/-- Names with their values, as they are passed. -/
def named (l : List (List Nat × Nat)) : List NameArg := l.map fun e => .named e.1 (some (e.2 : Int))

theorem nameItems_named : ∀ (l : List (List Nat × Nat)), (∀ e ∈ l, e.2 < 256) → nameItems (named l) = some l
  | [], _ => rfl
  | e :: l, h => by
    have h1 := h e (by simp)
    have ih := nameItems_named l fun e' he => h e' (by simp [he])
    unfold named at ih ⊢
    simp only [List.map_cons, nameItems, ih, Option.map_some, valueByte]
    rw [if_pos (by omega), show (((e.2 : Int) % 256).toNat) = e.2 by omega]

theorem named_quiet (l : List (List Nat × Nat)) : (named l).any NameArg.raises = false := by
  unfold named
  rw [List.any_map]
  induction l with
  | nil => rfl
  | cons e l ih => simp only [List.any_cons, ih, Bool.or_false]; rfl

/-- Names with non-zero bytes are the names which come back. -/
theorem loadNames_back {o : Out} {l : List (List Nat × Nat)} (h : ∀ e ∈ l, (∀ b ∈ e.1, b ≠ 0) ∧ e.2 < 256) (hn : o.names = buildNames l)
    (hc : o.nameCount = l.length) : loadNames o = some (l.map some) := by
  unfold loadNames
  rw [hn, hc]
  cases l with
  | nil => rfl
  | cons e l =>
    have : buildNames (e :: l) ≠ [] := by
      show e.1.takeWhile (· != 0) ++ [0, e.2 % 256] ++ buildNames l ≠ []
      simp
    rw [if_neg this, names_back (e :: l) h]
    simp

/-- C153: what is saved comes back, whatever the threads do: the metadata, the names, and every array with its shape, its type and its items.

Partial: only for arrays of the types which `Fit` allows, for names of which there are enough and which have room, without bands and without a section. -/
theorem saved_partial {c : Codec} (hc : c.Lawful) {w : World} (hw : w.table = true ∧ (∀ i, w.room i = true) ∧ w.namesMem = true ∧ w.infoMem = true ∧
      w.trouble = none) {x : Args} {l : List Arg} {names : List (List Nat × Nat)} (hl : x.arrays.list = some l) (hs : ∀ a ∈ l, Savable a)
    (hx : x.names = named names) (hn : ∀ e ∈ names, (∀ b ∈ e.1, b ≠ 0) ∧ e.2 < 256)
    (hr : (names.map fun e => e.1.length).sum ≤ 298 * names.length + 8) (hk : names = [] ∨ l.length ≤ names.length)
    (hm : x.metaData.length < 2 ^ 32) (hb : x.band = none) (ht : x.sect = none)
    (hsize : 300 * names.length + 639 * l.length + (l.map size).sum < 2 ^ 63) :
    ∃ s, save w x = .done (some s) false ∧ s.file = cut x.file ∧ s.sect = none ∧
      ∀ order worder stamp f, order.Perm (List.range l.length) → worder.Perm (List.range l.length) → stamp < 2 ^ 64 →
        writeFile c s.input order worder stamp = some f →
        ∃ arrays, load c f = .ok x.metaData (names.map some) arrays ∧ AllBack l arrays := by
  obtain ⟨w1, w2, w3, w4, w5⟩ := hw
  obtain ⟨⟨es, hes⟩, ys, hys, hlen, hok, hsum, rs, hrs, hback⟩ := infos_back c (decide (x.compType = 1)) w2 l hs 0
  have hni : nameItems x.names = some names := by rw [hx]; exact nameItems_named names fun e he => (hn e he).2
  have hcount : x.names.length = names.length := by rw [hx]; simp [named]
  have hroom : (buildNames names).length ≤ namesRoom names.length := (names_room_iff names fun e he => (hn e he).1).2 hr
  have hq : x.raises = false := by unfold Args.raises; rw [hb, hx, named_quiet]; rfl
  have hmd : x.metaData.take (x.metaData.length % 2 ^ 32) = x.metaData := by
    rw [Nat.mod_eq_of_lt hm]; exact List.take_length
  refine ⟨⟨cut x.file, none, inputOf x names ys⟩, ?_, rfl, rfl, ?_⟩
  · unfold save
    rw [ht]
    simp only [saveNames, hni, hcount]
    rw [if_neg (by rw [w3]; decide), if_neg (by omega)]
    have hbd : build w.table w.room false true x.arrays = .ok es (es.map (·.item)).sum := by
      unfold build
      rw [hl]
      simp only [hes]
      rw [if_neg (by rw [w1]; decide), if_pos (by unfold sameRows; cases es <;> simp)]
    simp only [saveArrays, hbd, hl, Option.getD_some, hys, write, w5, hq]
    rw [if_neg (by rw [w4]; simp)]
  · intro order worder stamp f ho hwo hst hf
    simp only at hf
    have hal : (inputOf x names ys).arrays = ys := rfl
    have hband : (inputOf x names ys).bandSize = 0 := by unfold inputOf; rw [hb]; rfl
    have hrl : 300 * names.length + 8 < 2 ^ 64 := by omega
    have hin : (inputOf x names ys).Ok c := by
      constructor
      · rw [hband]; exact hok
      · show x.names.length < 2 ^ 64; omega
      · show (x.metaData.take (x.metaData.length % 2 ^ 32)).length < 2 ^ 64; rw [hmd]; omega
      · show (x.level % 2 ^ 16).toNat < 2 ^ 16; omega
      · show (x.fileType % 2 ^ 16).toNat < 2 ^ 16; omega
      · show 1 < 2 ^ 32; decide
      · rw [hband]; decide
      · rw [hal, hsum]; omega
    have hread := file_read_partial hc hin (order := order) (worder := worder) (stamp := stamp) (f := f) (by rw [hal, hlen]; exact ho)
      (by rw [hal, hlen]; exact hwo) hst (by
        intro m hpm
        have h1 := packMeta_length hpm
        have h2 : (inputOf x names ys).metaData.length = x.metaData.length := by
          show (x.metaData.take (x.metaData.length % 2 ^ 32)).length = _; rw [hmd]
        have h3 := end_le (c := c) hband (fun y hy => (hok y hy).arr) (order := order) (by rw [hal, hlen]; exact ho) m.length
        have h4 : (inputOf x names ys).names.length ≤ 300 * names.length + 8 := hroom
        rw [hal, hsum, hlen] at h3
        omega) hf
    refine ⟨rs, ?_, hback⟩
    unfold load
    rw [hread]
    simp only
    have hout : (inputOf x names ys).out.arrays = ys.map outOf := rfl
    have hmo : (inputOf x names ys).out.metaData = some x.metaData := by
      show some (x.metaData.take (x.metaData.length % 2 ^ 32)) = _; rw [hmd]
    simp only [loadOut]
    rw [loadNames_back (o := (inputOf x names ys).out) hn rfl hcount, hmo, hout, hrs]
    simp only
    rw [if_neg]
    rintro ⟨h1, h2⟩
    rw [List.length_map, hlen] at h2
    rw [show (inputOf x names ys).out.nameCount = names.length from hcount] at h2
    rcases hk with rfl | hk
    · exact h1 rfl
    · omega

/-! ### A case -/

/-- A machine with enough memory and files which can be opened. -/
def good : World := ⟨true, fun _ => true, true, true, none⟩

/-- Every other of six bytes, a matrix whose items are in no order, and `None`. -/
def three : Obj := .items [
  .array ⟨1, ⟨[3], [2], 1⟩, false⟩ (memOf 0 [1#8, 2#8, 3#8, 4#8, 5#8, 6#8]),
  .array ⟨3, ⟨[2, 2], [2, 6], 2⟩, false⟩ (memOf 0 [1#8, 2#8, 3#8, 4#8, 0#8, 0#8, 5#8, 6#8, 7#8, 8#8]),
  .pyNone]

/-- They are saved with three names and two bytes of metadata. -/
def threeArgs : Args := ⟨[102], [7, 7], three, named [([97], 1), ([98], 0), ([99, 100], 255)], 1, 3, 1, none, none⟩

example : ∃ l, threeArgs.arrays.list = some l ∧ (∀ a ∈ l, Savable a) ∧ 300 * 3 + 639 * l.length + (l.map size).sum < 2 ^ 63 := by
  refine ⟨_, rfl, ?_, by decide⟩
  intro a ha
  simp only [List.mem_cons, List.not_mem_nil, or_false] at ha
  rcases ha with rfl | rfl | rfl
  · exact ⟨by decide, by decide, rfl, by decide, by decide, rfl, by decide, by decide, by decide, by decide, by decide, by decide⟩
  · exact ⟨by decide, by decide, rfl, by decide, by decide, rfl, by decide, by decide, by decide, by decide, by decide, by decide⟩
  · trivial

example : good.table = true ∧ (∀ i, good.room i = true) ∧ good.namesMem = true ∧ good.infoMem = true ∧ good.trouble = none :=
  ⟨rfl, fun _ => rfl, rfl, rfl, rfl⟩

example : ∀ e ∈ [([97], 1), ([98], 0), ([99, 100], 255)], (∀ b ∈ e.1, b ≠ 0) ∧ e.2 < 256 := by decide

example : ([([97], 1), ([98], 0), ([99, 100], 255)].map fun (e : List Nat × Nat) => e.1.length).sum ≤ 298 * 3 + 8 := by decide

/-- What is written of the arrays: the copies of both, the second one with its dimensions in the order they had. -/
example : (infos good.room 0 (three.list.getD [])).map (·.map fun y => (y.arr.dims, y.arr.data, y.strides, y.flags)) =
    some [([3], [1, 3, 5], [1], 3), ([2, 2], [1, 2, 3, 4, 5, 6, 7, 8], [2, 4], 2), ([], [], [], 0)] := by decide +kernel

/-! ### The order which is said of an array -/

/-- C153: the file says of an array which is contiguous that it is. -/
theorem order_said {a : Nums.Arr} {m : Mem} {y : ArrIn} (h : info true (.array a m) = some y) :
    (a.lay.cContig = true → y.flags % 2 = 1) ∧ (a.lay.fContig = true → y.flags / 2 = 1) ∧
      (a.lay.cContig = false → a.lay.fContig = true → y.flags = 2) ∧ (a.lay.cContig = true → a.lay.fContig = false → y.flags = 1) := by
  by_cases hc : a.lay.cContig = true ∨ a.lay.fContig = true
  · have ht : taken true true a m = some (a, m, false) := by
      simp only [taken, ensure, Bool.or_eq_true, if_true]
      rw [if_pos hc]
    simp only [info, ht, Option.map_eq_some_iff] at h
    obtain ⟨d, _, rfl⟩ := h
    simp only [flagsOf]
    refine ⟨fun h => ?_, fun h => ?_, fun h1 h2 => ?_, fun h1 h2 => ?_⟩
    · rw [h]; cases a.lay.fContig <;> rfl
    · rw [h]; cases a.lay.cContig <;> rfl
    · rw [h1, h2]; rfl
    · rw [h1, h2]; rfl
  · simp only [not_or, Bool.not_eq_true] at hc
    simp [hc.1, hc.2]

/-- What is written can be loaded: `DecompressFile` answers what the descriptions say. -/
theorem load_written {c : Codec} (hc : c.Lawful) {x : Input} (hx : x.Ok c) {order worder : List Nat} {stamp : Nat} {f : List Nat}
    (ho : order.Perm (List.range x.arrays.length)) (hw : worder.Perm (List.range x.arrays.length)) (hs : stamp < 2 ^ 64)
    (he : ∀ m, packMeta c x.zstd x.metaData = some m → x.fileEnd c 0 m.length order < 2 ^ 64)
    (h : writeFile c x order worder stamp = some f) : load c f = loadOut x.out := by
  unfold load
  rw [file_read_partial hc hx ho hw hs he h]

end Riptide.Sds.Save
