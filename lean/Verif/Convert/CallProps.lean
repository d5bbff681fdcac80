import Verif.Convert.CallLemmas
import Verif.Convert.CallKern
/-! # What the calls return (C135) -/
namespace Riptide.Convert.Call
open Riptide.Work Riptide.Binary Riptide.Unary Riptide.GroupBy.Entry
open Riptide.Convert.Call.Spec (whole real Gives Sound All At outAt)

/-- The shapes for which the walk of the safe call is right: at most one dimension with any distance, arrays in C or in Fortran order, and arrays
whose last dimension is closer than the first. -/
def Walkable (a : Lay) : Prop := a.dims.length ≤ 1 ∨ a.cContig = true ∨ a.fContig = true ∨ RowMajor a

/-- The shape of the result: that of the input, except that an array without dimensions becomes one with one item. -/
def outDims (a : Lay) : List Nat := if a.dims = [] then [1] else a.dims

theorem prod_ne {a : Lay} (h : a.len ≠ 0) : prod a.dims ≠ 0 := h

/-- The new array: its shape, its order, and the number of each item in it. -/
theorem out_facts {a : Lay} (hl : a.len ≠ 0) {item : Nat} (hi : 0 < item) :
    (outLay a item).dims = outDims a ∧ (outLay a item).item = item ∧ (outLay a item).len = a.len ∧ (contig (outLay a item)).1 = 0 ∧
    ((outLay a item).cContig = true ∨ (outLay a item).fContig = true) ∧ (a.fContig = true → (outLay a item).fContig = true) ∧
    (a.fContig = false → (outLay a item).cContig = true) ∧
    ∃ pos : List Nat → Nat, (∀ idx, InBounds idx a.dims → offs idx (outLay a item).strides = (pos idx : Int) * item) ∧
      (∀ idx, InBounds idx a.dims → pos idx < a.len) ∧ ∀ i j, InBounds i a.dims → InBounds j a.dims → pos i = pos j → i = j := by
  unfold outDims
  by_cases hd : a.dims = []
  · have e : outLay a item = ⟨[1], [(item : Int)], item⟩ := by unfold outLay; rw [if_pos hd]
    rw [e, if_pos hd]
    have hlen : a.len = 1 := by unfold Lay.len; rw [hd]; rfl
    refine ⟨rfl, rfl, ?_, ?_, .inl ?_, fun _ => ?_, fun _ => ?_, fun _ => 0, fun idx hb => ?_, fun idx hb => by rw [hlen]; exact Nat.one_pos, fun i j hi hj _ => ?_⟩
    · rw [hlen]; rfl
    · rfl
    · simp [Lay.cContig, sameStrides, cStrides, prod]
    · simp [Lay.fContig, sameStrides, fStrides]
    · simp [Lay.cContig, sameStrides, cStrides, prod]
    · rw [hd] at hb
      cases idx with
      | nil => simp [offs]
      | cons _ _ => exact hb.elim
    · rw [hd] at hi hj
      cases i with
      | nil => cases j with
        | nil => rfl
        | cons _ _ => exact hj.elim
      | cons _ _ => exact hi.elim
  · have e : outLay a item = allocate a.dims item a.fContig := by unfold outLay; rw [if_neg hd]
    rw [e, if_neg hd]
    have hcon := contig_allocate a.dims (item := item) a.fContig (prod_ne hl) hi
    cases hf : a.fContig with
    | false =>
      rw [hf] at hcon
      have hc : (allocate a.dims item false).cContig = true := alloc_c _ _
      refine ⟨rfl, rfl, rfl, hcon, .inl hc, fun h => (by cases h), fun _ => hc, fun idx => cPos idx a.dims, fun idx hb => ?_,
        fun idx hb => cPos_lt _ _ hb, fun i j h1 h2 h => cPos_inj _ _ _ h1 h2 h⟩
      exact offs_cContig (allocate a.dims item false) hc idx hb
    | true =>
      rw [hf] at hcon
      have hc : (allocate a.dims item true).fContig = true := alloc_f _ _
      refine ⟨rfl, rfl, rfl, hcon, .inr hc, fun _ => hc, fun h => (by cases h), fun idx => fPos idx a.dims, fun idx hb => ?_,
        fun idx hb => fPos_lt _ _ hb, fun i j h1 h2 h => fPos_inj _ _ _ h1 h2 h⟩
      exact offs_fContig (allocate a.dims item true) hc idx hb

/-- The walk of the safe call is right for the shapes named above. -/
theorem safe_faithful {a : Lay} (hw : a.strides.length = a.dims.length) (hl : a.len ≠ 0) (hi : 0 < a.item) {item : Nat} (ho : 0 < item)
    (hc : Walkable a) {l : List (Int × Int)} (hp : plan a (outLay a item) = some l) : Faithful a (outLay a item) l := by
  obtain ⟨f1, f2, f3, f4, f5, f6, f7, _⟩ := out_facts hl ho
  by_cases hn : a.dims.length ≤ 1
  · have hcon : contig a = (0, headStride a) := by unfold contig; rw [if_pos hn]
    rw [plan_eq, hcon, f4, if_pos ⟨rfl, rfl⟩] at hp
    have := Option.some.inj hp
    subst this
    obtain ⟨dims, strides, it⟩ := a
    match dims, strides, hw, hn with
    | [], [], _, _ =>
      refine faithful_straight_c (fun idx hb => ?_) (fun idx hb => ?_) <;>
      · cases idx with
        | nil => simp [offs, cPos]
        | cons _ _ => exact hb.elim
    | [d], [s], _, _ =>
      have hst : (outLay ⟨[d], [s], it⟩ item).strides = [(item : Int)] := by
        unfold outLay
        rw [if_neg (by simp)]
        unfold allocate
        simp only
        split <;> simp [fStrides, cStrides, prod]
      have hco : (contig (outLay ⟨[d], [s], it⟩ item)).2 = item := by
        unfold contig
        rw [f1]
        rw [if_pos (show (outDims ⟨[d], [s], it⟩).length ≤ 1 by simp [outDims])]
        show headStride _ = _
        unfold headStride
        rw [f2]
        split
        · unfold str; rw [hst]; rfl
        · rfl
      refine faithful_straight_c (fun idx hb => ?_) (fun idx hb => ?_)
      · match idx, hb with
        | [i], hb =>
          have hb1 : i < d := hb.1
          show offs [i] [s] = (cPos [i] [d] : Int) * headStride ⟨[d], [s], it⟩
          by_cases h : 1 < d
          · have e : headStride ⟨[d], [s], it⟩ = s := by unfold headStride; rw [if_pos ⟨by simp, h⟩]; rfl
            rw [e]; simp [offs, cPos, prod]
          · have : i = 0 := by omega
            subst this; simp [offs, cPos, prod]
      · match idx, hb with
        | [i], hb => rw [hst, hco]; simp [offs, cPos, prod]
  · have hne : a.dims ≠ [] := by intro h; rw [h] at hn; simp at hn
    have hd : (outLay a item).dims = a.dims := by rw [f1]; unfold outDims; rw [if_neg hne]
    have hit : 0 < (outLay a item).item := by rw [f2]; exact ho
    cases hf : a.fContig with
    | true => exact plan_contiguous hd hl hi hit (.inr ⟨hf, f6 hf⟩) hp
    | false =>
      rcases hc with h | h | h | h
      · exact absurd h hn
      · exact plan_contiguous hd hl hi hit (.inl ⟨h, f7 hf⟩) hp
      · rw [hf] at h; cases h
      · exact row_major_partial hw hd hl hit h (f7 hf) hp

/-- What a finished walk gives. -/
theorem gives_of_walk {a : Arr} (hs : Sound a) {ty : Nat} (hty : ty ≤ 13) {conv : Int → Option Int} {R : Int → Int → Prop} {P : Int → Prop}
    (hP : All a P) (hR : ∀ x, P x → ∃ y, conv x = some y ∧ R x y) {l l' : List (Int × Int)} (hperm : l'.Perm l)
    (hf : Faithful a.lay (outLay a.lay (sizeOf ty)) l) :
    Gives a ty (outDims a.lay) R (finish ty (outLay a.lay (sizeOf ty))
      (runWalk conv a.mem (outLay a.lay (sizeOf ty)).len (outLay a.lay (sizeOf ty)).item l')) := by
  obtain ⟨hsz, hpos⟩ := size_eq hty
  obtain ⟨f1, f2, f3, f4, f5, f6, f7, pos, p1, p2, p3⟩ := out_facts hs.items hpos
  rw [f2, f3]
  have hval : ∀ idx, InBounds idx a.lay.dims → ∃ x y, At a idx = some x ∧ (a.mem (offs idx a.lay.strides)).bind conv = some y ∧ R x y := by
    intro idx hb
    obtain ⟨x, hx⟩ := hs.mem idx hb
    obtain ⟨y, hy, hr⟩ := hR x (hP idx x hb hx)
    have hx' : a.mem (offs idx a.lay.strides) = some x := hx
    exact ⟨x, y, hx, by rw [hx']; exact hy, hr⟩
  obtain ⟨items, hrun, hlen, hit⟩ := runWalk_exact (conv := conv) (mem := a.mem) (n := a.lay.len) hpos hperm hf pos p1 p2 p3
    (fun idx hb => by obtain ⟨x, y, _, h, _⟩ := hval idx hb; exact ⟨y, h⟩)
  rw [hrun]
  refine ⟨rfl, f1, f2.trans hsz, hlen, f5, f6, fun idx hb => ?_⟩
  obtain ⟨x, y, h1, h2, h3⟩ := hval idx hb
  refine ⟨x, y, h1, ?_, h3⟩
  unfold outAt
  have e : (offs idx (outLay a.lay (sizeOf ty)).strides).toNat / (outLay a.lay (sizeOf ty)).item = pos idx := by
    rw [p1 idx hb, f2]
    have : ((pos idx : Int) * (sizeOf ty : Int)).toNat = pos idx * sizeOf ty := by
      rw [← Int.natCast_mul]; rfl
    rw [this, Nat.mul_div_cancel _ hpos]
  rw [e, hit idx hb, h2]
  rfl

theorem cut_eq {out : Nat} (h : out ≤ 13) : cut (out : Int) = out :=
  IT.wrap_of_inRange .i32 (by decide) (by unfold IT.InRange; have : IT.i32.lo = -2147483648 ∧ IT.i32.hi = 2147483647 := by decide
                                          omega)

/-- With at most two dimensions nothing is left to numpy. -/
theorem plan_two {a out : Lay} (hn2 : a.dims.length ≤ 2) (f4 : (contig out).1 = 0) : (plan a out).isSome = true := by
  rw [plan_eq, f4]
  simp only [and_true]
  have hcase : (contig a).1 = 0 ∨ (contig a).1 = 1 ∨ (contig a).1 = -1 := by
    unfold contig
    split
    · exact .inl rfl
    · rename_i hn
      have e2 : a.dims.length = 2 := by omega
      rw [e2]
      split
      · exact .inl rfl
      · split
        · have := backChain_le a 1 (lastStride a)
          show ((backChain a 1 (lastStride a) : Nat) : Int) = 0 ∨ ((backChain a 1 (lastStride a) : Nat) : Int) = 1 ∨
            ((backChain a 1 (lastStride a) : Nat) : Int) = -1
          omega
        · have : fwdChain a 1 (headStride a) ≤ 1 := by
            unfold fwdChain
            simp only
            split
            · omega
            · unfold fwdChain; omega
          show -((fwdChain a 1 (headStride a) : Nat) : Int) = 0 ∨ -((fwdChain a 1 (headStride a) : Nat) : Int) = 1 ∨
            -((fwdChain a 1 (headStride a) : Nat) : Int) = -1
          omega
  rcases hcase with e | e | e <;> rw [e] <;> simp

/-- C135 (partial: arrays of the shapes `Walkable`, with items, and not left to numpy). `ConvertSafe` of an array of a basic type to a basic type, for
every schedule of the threads: the reply is an array of that type and the same shape (one item for an array without dimensions), contiguous, in Fortran
order if the input is, whose item at every index is what the function for the two types makes of the item of the input. With at most two dimensions
nothing is left to numpy. -/
theorem safe_call_partial (w : Wide) {a : Arr} (hs : Sound a) (hc : Walkable a.lay) {out : Nat} (h1 : a.ty ≤ 13) (h2 : out ≤ 13)
    {c : Conv} (hk : safeKern a.ty out = some c) {P : Int → Prop} (hP : All a P) {R : Int → Int → Prop}
    (hR : ∀ x, P x → ∃ y, convItem w c x = some y ∧ R x y)
    {workers : Nat} {nt : Bool} {par : Option (List Nat)} (h : ChunkSched workers a.lay.len nt par) :
    (safeCall w par a out = .numpy out ∧ 3 ≤ a.lay.dims.length) ∨ Gives a out (outDims a.lay) R (safeCall w par a out) := by
  obtain ⟨hsz, hpos⟩ := size_eq h2
  have hcall : safeCall w par a out = match safeWalk a.lay (outLay a.lay (sizeOf out)) par with
      | none => .numpy out
      | some l => finish out (outLay a.lay (sizeOf out))
          (runWalk (convItem w c) a.mem (outLay a.lay (sizeOf out)).len (outLay a.lay (sizeOf out)).item l) := by
    unfold safeCall
    rw [cut_eq h2, if_neg (by omega)]
    have e : ((out : Int)).toNat = out := rfl
    rw [e, hk]
    rfl
  rcases safeWalk_plan a.lay (outLay a.lay (sizeOf out)) h with ⟨hp, hw⟩ | ⟨l, l', hp, hw, hperm⟩
  · refine .inl ⟨by rw [hcall, hw], ?_⟩
    obtain ⟨_, _, _, f4, _⟩ := out_facts hs.items hpos
    by_cases hn : a.lay.dims.length ≤ 2
    · have := plan_two hn f4
      rw [hp] at this
      cases this
    · omega
  · refine .inr ?_
    rw [hcall, hw]
    exact gives_of_walk hs h2 hP hR hperm (safe_faithful hs.strides hs.items hs.item hpos hc hp)

end Riptide.Convert.Call
