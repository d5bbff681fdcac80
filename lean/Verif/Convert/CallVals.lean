import Verif.Convert.CallProps
/-! # The calls on integers, floats and booleans; what they refuse; what goes wrong (C135) -/
namespace Riptide.Convert.Call
open Riptide.Work Riptide.Binary Riptide.Unary Riptide.GroupBy.Entry
open Riptide.Convert.Call.Spec (whole real Gives Sound All At outAt)

attribute [local irreducible] Gives

theorem whole_le {ty : Nat} {t : IT} (h : whole ty = some t) : ty ≤ 13 := by
  unfold whole at h; split at h <;> first | omega | cases h
theorem real_le {ty : Nat} {t : FT} (h : real ty = some t) : ty ≤ 13 := by
  rcases real_num h with rfl | rfl <;> decide

/-- C135 (partial, see `safe_call_partial`). Integers to integers: invalid items become invalid, and values of the target type are kept. -/
theorem safe_ints_partial (w : Wide) {a : Arr} (hs : Sound a) (hc : Walkable a.lay) {out : Nat} {s d : IT} (h1 : whole a.ty = some s)
    (h2 : whole out = some d) (hr : All a s.InRange) {workers : Nat} {nt : Bool} {par : Option (List Nat)} (h : ChunkSched workers a.lay.len nt par) :
    (safeCall w par a out = .numpy out ∧ 3 ≤ a.lay.dims.length) ∨
    Gives a out (outDims a.lay) (fun x y => Convert.Spec.IntOk s d x y ∧ d.InRange y) (safeCall w par a out) := by
  obtain ⟨c, hk, _⟩ := safe_item_ints w h1 h2 (IT.inv_inRange s (by have := whole_bits h1; omega))
  refine safe_call_partial w hs hc (whole_le h1) (whole_le h2) hk hr (fun x hx => ?_) h
  obtain ⟨c', hk', y, hy⟩ := safe_item_ints w h1 h2 hx
  rw [hk] at hk'
  have := Option.some.inj hk'
  subst this
  exact ⟨y, hy⟩

/-- C135 (partial, see `safe_call_partial`). Integers to floats: invalid items become NaN, and numbers which the format has are exact. -/
theorem safe_to_float_partial (w : Wide) {a : Arr} (hs : Sound a) (hc : Walkable a.lay) {out : Nat} {s : IT} {f : FT} (h1 : whole a.ty = some s)
    (h2 : real out = some f) {workers : Nat} {nt : Bool} {par : Option (List Nat)} (h : ChunkSched workers a.lay.len nt par) :
    (safeCall w par a out = .numpy out ∧ 3 ≤ a.lay.dims.length) ∨
    Gives a out (outDims a.lay) (fun x y => (x = s.inv → f.isNan y.toNat = true) ∧
      (x ≠ s.inv → x.natAbs < 2 ^ (f.mb + 1) → Convert.Spec.Exact f y.toNat x)) (safeCall w par a out) := by
  obtain ⟨c, hk, _⟩ := safe_item_to_float w h1 h2 0
  refine safe_call_partial w hs hc (whole_le h1) (real_le h2) hk (P := fun _ => True) (fun _ _ _ _ => trivial) (fun x _ => ?_) h
  obtain ⟨c', hk', y, hy, hy2⟩ := safe_item_to_float w h1 h2 x
  rw [hk] at hk'
  have := Option.some.inj hk'
  subst this
  exact ⟨y, hy, hy2⟩

/-- C135 (partial, see `safe_call_partial`). Floats to integers, if every finite item fits: NaN and infinities become invalid, others lose their
fraction. -/
theorem safe_from_float_partial (w : Wide) {a : Arr} (hs : Sound a) (hc : Walkable a.lay) {out : Nat} {f : FT} {d : IT} (h1 : real a.ty = some f)
    (h2 : whole out = some d) (hr : All a fun x => 0 ≤ x ∧ (f.isFinite x.toNat = true → d.InRange (f.trunc x.toNat)))
    {workers : Nat} {nt : Bool} {par : Option (List Nat)} (h : ChunkSched workers a.lay.len nt par) :
    (safeCall w par a out = .numpy out ∧ 3 ≤ a.lay.dims.length) ∨
    Gives a out (outDims a.lay) (fun x y => (f.isFinite x.toNat = false → y = d.inv) ∧ (f.isFinite x.toNat = true → y = f.trunc x.toNat))
      (safeCall w par a out) := by
  have hnan : f.isFinite f.infMag = true → d.InRange (f.trunc f.infMag) := by
    intro hf
    rcases real_num h1 with e | e <;> rw [e] at h1 <;> have := Option.some.inj h1 <;> subst this <;> exact absurd hf (by decide)
  obtain ⟨c, hk, _⟩ := safe_item_from_float w h1 h2 f.infMag hnan
  refine safe_call_partial w hs hc (real_le h1) (whole_le h2) hk hr (fun x hx => ?_) h
  obtain ⟨c', hk', y, hy, hy2⟩ := safe_item_from_float w h1 h2 x.toNat hx.2
  rw [hk] at hk'
  have := Option.some.inj hk'
  subst this
  have e : ((x.toNat : Nat) : Int) = x := Int.toNat_of_nonneg hx.1
  rw [e] at hy
  exact ⟨y, hy, hy2⟩

/-- C135 (partial, see `safe_call_partial`). To booleans: whether the item is not zero. -/
theorem safe_to_bool_partial (w : Wide) {a : Arr} (hs : Sound a) (hc : Walkable a.lay) {s : IT} (h1 : whole a.ty = some s)
    {workers : Nat} {nt : Bool} {par : Option (List Nat)} (h : ChunkSched workers a.lay.len nt par) :
    (safeCall w par a (0 : Nat) = .numpy 0 ∧ 3 ≤ a.lay.dims.length) ∨
    Gives a 0 (outDims a.lay) (fun x y => (x = 0 → y = 0) ∧ (x ≠ 0 → y = 1)) (safeCall w par a (0 : Nat)) := by
  have h0 : a.ty ≠ 0 := by intro e; rw [e] at h1; cases h1
  obtain ⟨c, hk, _, hv⟩ := (item_to_bool w h0).1 s h1
  refine safe_call_partial w hs hc (whole_le h1) (by decide) hk (P := fun _ => True) (fun _ _ _ _ => trivial) (fun x _ => ?_) h
  exact ⟨_, hv x, fun e => by rw [if_pos e], fun e => by rw [if_neg e]⟩

/-- C135 (partial, see `safe_call_partial`). The same type: a copy, bit by bit. -/
theorem safe_copy_partial (w : Wide) {a : Arr} (hs : Sound a) (hc : Walkable a.lay) (h1 : a.ty ≤ 13)
    {workers : Nat} {nt : Bool} {par : Option (List Nat)} (h : ChunkSched workers a.lay.len nt par) :
    (safeCall w par a a.ty = .numpy a.ty ∧ 3 ≤ a.lay.dims.length) ∨ Gives a a.ty (outDims a.lay) (fun x y => y = x) (safeCall w par a a.ty) := by
  obtain ⟨hk, _, hv⟩ := same_type w h1
  exact safe_call_partial w hs hc h1 h1 hk (P := fun _ => True) (fun _ _ _ _ => trivial) (R := fun x y => y = x) (fun x _ => ⟨x, hv x, rfl⟩) h

/-- C135 (partial: one dimension, or Fortran order). `ConvertUnsafe`, for every schedule of the threads: the item at every index is what the function
for the two types makes of it. The distance of the first dimension must be the one of Fortran order, also if it has one item. -/
theorem unsafe_call_partial (w : Wide) {a : Arr} (hs : Sound a)
    (hc : a.lay.dims.length = 1 ∨ (a.lay.dims ≠ [] ∧ a.lay.fContig = true ∧ str a.lay 0 = a.lay.item)) {out : Nat} (h1 : a.ty ≤ 13) (h2 : out ≤ 13)
    {c : Conv} (hk : unsafeKern a.ty out = some c) {P : Int → Prop} (hP : All a P) {R : Int → Int → Prop}
    (hR : ∀ x, P x → ∃ y, convItem w c x = some y ∧ R x y)
    {workers : Nat} {nt : Bool} {par : Option (List Nat)} (h : ChunkSched workers a.lay.len nt par) :
    Gives a out a.lay.dims R (unsafeCall w par a out) := by
  have hne : a.lay.dims ≠ [] := by
    rcases hc with hc | hc
    · intro e; rw [e] at hc; cases hc
    · exact hc.1
  obtain ⟨hsz, hpos⟩ := size_eq h2
  have hcall : unsafeCall w par a out = finish out (outLay a.lay (sizeOf out))
      (runWalk (convItem w c) a.mem (outLay a.lay (sizeOf out)).len (outLay a.lay (sizeOf out)).item
        (threaded a.lay.len (str a.lay 0) (str (outLay a.lay (sizeOf out)) 0) par)) := by
    unfold unsafeCall
    rw [cut_eq h2, if_neg (by omega)]
    have e : ((out : Int)).toNat = out := rfl
    rw [e, hk]
    simp only
    rw [if_neg hne]
  have hf : Faithful a.lay (outLay a.lay (sizeOf out)) (straight a.lay.len (str a.lay 0) (str (outLay a.lay (sizeOf out)) 0)) := by
    rcases hc with hc | ⟨_, hc, hst⟩
    · have hwl := hs.strides
      clear hcall h hR hP hne
      generalize a.lay = b at hwl hc
      obtain ⟨dims, strides, it⟩ := b
      match dims, strides, hwl, hc with
      | [d], [s], _, _ =>
        have hst : (outLay ⟨[d], [s], it⟩ (sizeOf out)).strides = [(sizeOf out : Int)] := by
          unfold outLay
          rw [if_neg (by simp)]
          unfold allocate
          simp only
          split <;> simp [fStrides, cStrides, prod]
        refine faithful_straight_c (fun idx hb => ?_) (fun idx hb => ?_)
        · match idx, hb with
          | [i], hb => show offs [i] [s] = _; simp [offs, cPos, prod, str]
        · match idx, hb with
          | [i], hb => unfold str; rw [hst]; simp [offs, cPos, prod]
    · obtain ⟨f1, f2, f3, f4, f5, f6, f7, _⟩ := out_facts hs.items hpos
      have hd : (outLay a.lay (sizeOf out)).dims = a.lay.dims := by rw [f1]; unfold outDims; rw [if_neg hne]
      have ho : str (outLay a.lay (sizeOf out)) 0 = sizeOf out := by
        unfold outLay
        rw [if_neg hne, hc]
        show (fStrides (sizeOf out) a.lay.dims).getD 0 0 = _
        cases hdd : a.lay.dims with
        | nil => exact absurd hdd hne
        | cons d ds => rfl
      rw [hst, ho]
      refine faithful_straight_f (fun idx hb => offs_fContig a.lay hc idx hb) (fun idx hb => ?_)
      have := offs_fContig (outLay a.lay (sizeOf out)) (f6 hc) idx (by rw [hd]; exact hb)
      rw [hd, f2] at this
      exact this
  have hod : outDims a.lay = a.lay.dims := by unfold outDims; rw [if_neg hne]
  rw [hcall, ← hod]
  exact gives_of_walk hs h2 hP hR (threaded_perm _ _ h) hf

/-- C135 (partial, see `unsafe_call_partial`). Integers to integers: values of the target type are kept, and others are reduced. -/
theorem unsafe_ints_partial (w : Wide) {a : Arr} (hs : Sound a)
    (hc : a.lay.dims.length = 1 ∨ (a.lay.dims ≠ [] ∧ a.lay.fContig = true ∧ str a.lay 0 = a.lay.item)) {out : Nat} {s d : IT}
    (h1 : whole a.ty = some s) (h2 : whole out = some d) (hr : All a s.InRange)
    {workers : Nat} {nt : Bool} {par : Option (List Nat)} (h : ChunkSched workers a.lay.len nt par) :
    Gives a out a.lay.dims (fun x y => (d.InRange x → y = x) ∧ d.InRange y ∧ ∃ q, y = x + q * 2 ^ d.bits) (unsafeCall w par a out) := by
  obtain ⟨c, hk, _⟩ := unsafe_item_ints w h1 h2 (IT.inv_inRange s (by have := whole_bits h1; omega))
  refine unsafe_call_partial w hs hc (whole_le h1) (whole_le h2) hk hr (fun x hx => ?_) h
  obtain ⟨c', hk', y, hy⟩ := unsafe_item_ints w h1 h2 hx
  rw [hk] at hk'
  have := Option.some.inj hk'
  subst this
  exact ⟨y, hy⟩

theorem mapM_elem {α β : Type} {f : α → Option β} : ∀ {l : List α} {ws : List β}, l.mapM f = some ws → ∀ p ∈ l, ∃ v, f p = some v ∧ v ∈ ws
  | [], ws, h, p, hp => by cases hp
  | q :: l, ws, h, p, hp => by
    rw [List.mapM_cons] at h
    cases hq : f q with
    | none => rw [hq] at h; cases h
    | some v =>
      cases hl : l.mapM f with
      | none => rw [hq, hl] at h; cases h
      | some vs =>
        rw [hq, hl] at h
        have := Option.some.inj h
        subst this
        rcases List.mem_cons.1 hp with rfl | hp
        · exact ⟨v, hq, List.mem_cons_self ..⟩
        · obtain ⟨u, h1, h2⟩ := mapM_elem hl p hp
          exact ⟨u, h1, List.mem_cons_of_mem _ h2⟩

theorem foldlM_out {buf : List (Option Int)} : ∀ {ws : List (Nat × Int)} {wr : Nat × Int}, wr ∈ ws → buf.length ≤ wr.1 →
    ws.foldlM (fun (buf : List (Option Int)) w => if w.1 < buf.length then some (buf.set w.1 (some w.2)) else none) buf = none
  | [], _, h, _ => by cases h
  | v :: ws, wr, h, hl => by
    rw [List.foldlM_cons]
    rcases List.mem_cons.1 h with rfl | h
    · rw [if_neg (by omega)]; rfl
    · split
      · exact foldlM_out h (by simpa using hl)
      · rfl

/-- A walk which writes outside of the output is undefined. -/
theorem runWalk_out {conv mem : Int → Option Int} {n item : Nat} (hi : 0 < item) {l : List (Int × Int)} {x : Int} {k : Nat}
    (hm : (x, (k : Int) * item) ∈ l) (hk : n ≤ k) : runWalk conv mem n item l = none := by
  unfold runWalk
  cases hw : l.mapM (stepItem conv mem item) with
  | none => rfl
  | some ws =>
    obtain ⟨v, h1, h2⟩ := mapM_elem hw _ hm
    rw [Option.bind_some]
    refine foldlM_out h2 ?_
    have e : v.1 = k := by
      unfold stepItem at h1
      split at h1
      · cases h1
      · split at h1
        · cases h1
        · split at h1
          · have := Option.some.inj h1
            rw [← this]
            show ((k : Int) * item / item).toNat = k
            rw [Int.mul_ediv_cancel _ (by omega)]; rfl
          · cases h1
    rw [e]
    simpa using hk

/-- C135. `ConvertUnsafe` is undefined for every array which is not in Fortran order and has more than one item behind an index of the first dimension, for
every schedule and whatever its items are: it walks over all items with the distance of the first dimension and leaves the output. -/
theorem unsafe_leaves_output (w : Wide) {a : Arr} {out : Nat} (h1 : a.ty ≤ 13) (h2 : out ≤ 13) (hf : a.lay.fContig = false)
    (hd : 2 ≤ prod (a.lay.dims.drop 1)) {workers : Nat} {nt : Bool} {par : Option (List Nat)} (h : ChunkSched workers a.lay.len nt par) :
    unsafeCall w par a out = .undef := by
  have hl : a.lay.len ≠ 0 := by
    intro e
    unfold Lay.fContig at hf
    rw [e] at hf; simp at hf
  obtain ⟨hsz, hpos⟩ := size_eq h2
  have hne : a.lay.dims ≠ [] := by intro e; rw [e] at hd; simp [prod] at hd
  obtain ⟨c, hk⟩ := Option.isSome_iff_exists.1 (kernel_exists h1 h2).2
  obtain ⟨f1, f2, f3, _⟩ := out_facts hl hpos
  obtain ⟨d, ds, hdd⟩ := List.exists_cons_of_ne_nil hne
  have ho : str (outLay a.lay (sizeOf out)) 0 = ((prod ds * sizeOf out : Nat) : Int) := by
    unfold outLay
    rw [if_neg hne, hf, hdd]
    rfl
  have hlen : a.lay.len = d * prod ds := by unfold Lay.len; rw [hdd]; rfl
  rw [hdd] at hd
  simp only [List.drop_succ_cons, List.drop_zero] at hd
  have hlen2 : 2 ≤ a.lay.len := by
    have hd0 : 0 < d := by
      rcases Nat.eq_zero_or_pos d with e | e
      · subst e; rw [Nat.zero_mul] at hlen; exact absurd hlen hl
      · exact e
    rw [hlen]
    calc 2 ≤ 1 * prod ds := by omega
      _ ≤ d * prod ds := Nat.mul_le_mul_right _ hd0
  unfold unsafeCall
  rw [cut_eq h2, if_neg (by omega)]
  have e : ((out : Int)).toNat = out := rfl
  rw [e, hk]
  simp only
  rw [if_neg hne, f2, f3]
  have hm : (((a.lay.len - 1 : Nat) : Int) * str a.lay 0, (((a.lay.len - 1) * prod ds : Nat) : Int) * (sizeOf out : Int)) ∈
      threaded a.lay.len (str a.lay 0) (str (outLay a.lay (sizeOf out)) 0) par := by
    refine (threaded_perm _ _ h).mem_iff.mpr (mem_straight.mpr ⟨a.lay.len - 1, by omega, rfl, ?_⟩)
    rw [ho]
    push_cast
    rw [Int.mul_assoc]
  have hk2 : a.lay.len ≤ (a.lay.len - 1) * prod ds := by
    calc a.lay.len ≤ (a.lay.len - 1) * 2 := by omega
      _ ≤ (a.lay.len - 1) * prod ds := Nat.mul_le_mul_left _ hd
  rw [runWalk_out hpos hm hk2]
  rfl

/-- C135. `ConvertUnsafe` of an array without dimensions reads the distance of a dimension which is not there. -/
theorem unsafe_zero_dim (w : Wide) (par : Option (List Nat)) {a : Arr} {out : Nat} (h1 : a.ty ≤ 13) (h2 : out ≤ 13) (hd : a.lay.dims = []) :
    unsafeCall w par a out = .undef := by
  obtain ⟨c, hk⟩ := Option.isSome_iff_exists.1 (kernel_exists h1 h2).2
  unfold unsafeCall
  rw [cut_eq h2, if_neg (by omega)]
  have e : ((out : Int)).toNat = out := rfl
  rw [e, hk]
  simp only
  rw [if_pos hd]

/-- C135. What the calls refuse: input types above `long double`, and numbers of the output type which are not such a type after they were cut to 32
bits; nothing else. -/
theorem call_refuses (w : Wide) (par : Option (List Nat)) (a : Arr) (out : Int) :
    (safeCall w par a out = .err ↔ ¬ (a.ty ≤ 13 ∧ 0 ≤ cut out ∧ cut out ≤ 13)) ∧
    (unsafeCall w par a out = .err ↔ ¬ (a.ty ≤ 13 ∧ 0 ≤ cut out ∧ cut out ≤ 13)) := by
  by_cases h : cut out < 0 ∨ 13 < a.ty ∨ 13 < cut out
  · unfold safeCall unsafeCall
    rw [if_pos h, if_pos h]
    exact ⟨⟨fun _ => by omega, fun _ => rfl⟩, ⟨fun _ => by omega, fun _ => rfl⟩⟩
  · have hk := kernel_exists (ti := a.ty) (to := (cut out).toNat) (by omega) (by omega)
    obtain ⟨c, hc⟩ := Option.isSome_iff_exists.1 hk.1
    obtain ⟨c2, hc2⟩ := Option.isSome_iff_exists.1 hk.2
    have hfin : ∀ ty lay r, finish ty lay r ≠ .err := by
      intro ty lay r
      cases r <;> simp [finish]
    unfold safeCall unsafeCall
    rw [if_neg h, if_neg h, hc, hc2]
    simp only
    refine ⟨⟨fun e => ?_, fun e => absurd ⟨by omega, by omega, by omega⟩ e⟩, ⟨fun e => ?_, fun e => absurd ⟨by omega, by omega, by omega⟩ e⟩⟩
    · exfalso
      revert e
      split
      · intro e; cases e
      · exact hfin _ _ _
    · exfalso
      revert e
      split
      · intro e; cases e
      · exact hfin _ _ _

/-- C135. The arguments: `ConvertSafe` takes an array and an `int` and does not look at more; `ConvertUnsafe` takes exactly an array and something which can
be taken for an integer of 64 bits. Anything else is refused. -/
theorem args_taken (w : Wide) (par : Option (List Nat)) (a : Arr) (n : Int) (hn : -2 ^ 63 ≤ n ∧ n < 2 ^ 63) (rest : List Arg) :
    convertSafe w par (.arr a :: .int n :: rest) = safeCall w par a n ∧
    convertUnsafe w par [.arr a, .int n] = unsafeCall w par a n ∧ convertUnsafe w par [.arr a, .index n] = unsafeCall w par a n ∧
    (∀ m, ¬ (-2 ^ 63 ≤ m ∧ m < 2 ^ 63) → convertSafe w par (.arr a :: .int m :: rest) = .err ∧ convertUnsafe w par [.arr a, .int m] = .err) ∧
    (∀ args, (∀ a n rest, args ≠ Arg.arr a :: .int n :: rest) → convertSafe w par args = .err) ∧
    (∀ args, (∀ a n, args ≠ [Arg.arr a, .int n] ∧ args ≠ [Arg.arr a, .index n]) → convertUnsafe w par args = .err) := by
  refine ⟨?_, ?_, ?_, fun m hm => ⟨?_, ?_⟩, fun args h => ?_, fun args h => ?_⟩
  · show safeCall w par a (longLong n) = _
    unfold longLong; rw [if_pos hn]
  · unfold convertUnsafe parseL; simp only; rw [if_pos hn]
  · unfold convertUnsafe parseL; simp only; rw [if_pos hn]
  · show safeCall w par a (longLong m) = _
    unfold longLong; rw [if_neg hm]
    exact ((call_refuses w par a (-1)).1).mpr (by have : cut (-1) = -1 := by decide
                                                  omega)
  · unfold convertUnsafe parseL; simp only; rw [if_neg hm]
  · unfold convertSafe
    split
    · rename_i a n rest
      exact absurd rfl (h a n rest)
    · rfl
  · unfold convertUnsafe
    split
    · rename_i a x
      cases x with
      | int n => exact absurd rfl (h a n).1
      | index n => exact absurd rfl (h a n).2
      | arr _ => rfl
      | other => rfl
    · rfl

/-- Any arithmetic, for the examples. -/
def anyWide : Wide := ⟨fun _ _ x => some x, fun _ => true, fun x => decide (x = 0), 0⟩

/-- Memory with the items 0, 1, 2, … of `size` bytes, `n` of them. -/
def ramp (size n : Nat) (o : Int) : Option Int := if 0 ≤ o ∧ o < (size * n : Nat) ∧ o % size = 0 then some (o / size) else none

/-- C135. The full statement is false of the safe call: every second row of an array in Fortran order (three rows of two columns are left of six) is
scrambled, because the output is in C order while the walk goes through the columns: the item at (0, 1) is 6 and becomes 2. Such an array is not `Walkable`. -/
theorem safe_scrambles :
    let a : Arr := ⟨⟨[3, 2], [16, 48], 8⟩, 7, ramp 8 12⟩
    Sound a ∧ ¬ Walkable a.lay ∧
    safeCall anyWide none a 5 = .done 5 ⟨[3, 2], [8, 4], 4⟩ [some 0, some 2, some 4, some 6, some 8, some 10] ∧
    At a [0, 1] = some 6 ∧ outAt ⟨[3, 2], [8, 4], 4⟩ [some 0, some 2, some 4, some 6, some 8, some 10] [0, 1] = some 2 := by
  refine ⟨⟨rfl, by decide, by decide, fun idx hb => ?_⟩, ?_, by decide +kernel, by decide +kernel, by decide +kernel⟩
  · obtain ⟨i, j, rfl, hi, hj⟩ := inBounds2.mp hb
    unfold At
    rw [offs2]
    refine ⟨((i : Int) * 16 + j * 48) / 8, ?_⟩
    show ramp 8 12 _ = _
    unfold ramp
    rw [if_pos ⟨by omega, by omega, by omega⟩]
    rfl
  · unfold Walkable RowMajor
    decide +kernel

/-- C135. Nor of overlapping windows: three windows of four items over six items are read beyond their end. -/
theorem safe_leaves_input : safeCall anyWide none ⟨⟨[3, 4], [8, 8], 8⟩, 7, ramp 8 6⟩ 5 = .undef := by decide +kernel

/-- C135. A number too large for 32 bits is taken for another type: `2^32 + 5` gives an array of type 5. And an infinity becomes NaN on the way to
`long double`, invalid integers and NaN become true. -/
theorem safe_surprises :
    safeCall anyWide none ⟨⟨[2], [8], 8⟩, 7, ramp 8 2⟩ (2 ^ 32 + 5) = .done 5 ⟨[2], [4], 4⟩ [some 0, some 1] ∧
    (safeKern 12 13).map (fun c => convItem ⟨fun _ _ x => some x, fun _ => true, fun x => decide (x = 0), 77⟩ c 0x7ff0000000000000) = some (some 77) ∧
    (safeKern 12 0).map (fun c => convItem anyWide c FT.f64.qnan) = some (some 1) ∧
    (safeKern 5 0).map (fun c => convItem anyWide c IT.i32.inv) = some (some 1) := by decide +kernel

/-- The hypotheses can be met: every second row of a matrix in C order, from int64 with an invalid item to int16, is `Walkable`; and one dimension for the
unsafe call. -/
example : Walkable ⟨[2, 2], [32, 8], 8⟩ ∧
    safeCall anyWide none ⟨⟨[2, 2], [32, 8], 8⟩, 7, fun o => if o = 8 then some (-2 ^ 63) else ramp 8 8 o⟩ 3 =
      .done 3 ⟨[2, 2], [4, 2], 2⟩ [some 0, some (-32768), some 4, some 5] ∧
    unsafeCall anyWide none ⟨⟨[3], [-8], 8⟩, 7, fun o => ramp 8 3 (o + 16)⟩ 3 = .done 3 ⟨[3], [2], 2⟩ [some 2, some 1, some 0] := by
  refine ⟨?_, by decide +kernel, by decide +kernel⟩
  unfold Walkable RowMajor
  decide +kernel

/-- And the array of that example meets `Sound` and `All`. -/
example : Sound ⟨⟨[2, 2], [32, 8], 8⟩, 7, ramp 8 8⟩ ∧ All ⟨⟨[2, 2], [32, 8], 8⟩, 7, ramp 8 8⟩ IT.i64.InRange := by
  have hat : ∀ i j : Nat, i < 2 → j < 2 → At ⟨⟨[2, 2], [32, 8], 8⟩, 7, ramp 8 8⟩ [i, j] = some (((i : Int) * 32 + j * 8) / 8) := by
    intro i j hi hj
    unfold At
    rw [offs2]
    show ramp 8 8 _ = _
    unfold ramp
    rw [if_pos ⟨by omega, by omega, by omega⟩]
    rfl
  refine ⟨⟨rfl, by decide, by decide, fun idx hb => ?_⟩, fun idx x hb hx => ?_⟩
  · obtain ⟨i, j, rfl, hi, hj⟩ := inBounds2.mp hb
    exact ⟨_, hat i j hi hj⟩
  · obtain ⟨i, j, rfl, hi, hj⟩ := inBounds2.mp hb
    rw [hat i j hi hj] at hx
    have := Option.some.inj hx
    have hlo : IT.i64.lo = -9223372036854775808 ∧ IT.i64.hi = 9223372036854775807 := by decide
    unfold IT.InRange
    omega

theorem runWalk_undefined {conv mem : Int → Option Int} {n item : Nat} {l : List (Int × Int)} {p : Int × Int} (hm : p ∈ l)
    (hk : (mem p.1).bind conv = none) : runWalk conv mem n item l = none := by
  unfold runWalk
  cases hw : l.mapM (stepItem conv mem item) with
  | none => rfl
  | some ws =>
    obtain ⟨v, h1, h2⟩ := mapM_elem hw _ hm
    exfalso
    unfold stepItem at h1
    cases hx : mem p.1 with
    | none => simp only [hx] at h1; cases h1
    | some x =>
      rw [hx] at hk
      have hk' : conv x = none := hk
      simp only [hx, hk'] at h1
      cases h1

/-- C135. A single item for which the cast is undefined makes the whole call undefined: the safe call for the shapes of at most two dimensions for which
its walk is right, the unsafe call in one dimension. -/
theorem undefined_item (w : Wide) {a : Arr} (hs : Sound a) {out : Nat} (h1 : a.ty ≤ 13) (h2 : out ≤ 13) {idx : List Nat} {x : Int}
    (hb : InBounds idx a.lay.dims) (hx : At a idx = some x) {workers : Nat} {nt : Bool} {par : Option (List Nat)} (h : ChunkSched workers a.lay.len nt par) :
    (∀ c, safeKern a.ty out = some c → convItem w c x = none → Walkable a.lay → a.lay.dims.length ≤ 2 → safeCall w par a out = .undef) ∧
    (∀ c, unsafeKern a.ty out = some c → convItem w c x = none → a.lay.dims.length = 1 → unsafeCall w par a out = .undef) := by
  obtain ⟨hsz, hpos⟩ := size_eq h2
  have e : ((out : Int)).toNat = out := rfl
  have hx' : a.mem (offs idx a.lay.strides) = some x := hx
  refine ⟨fun c hk hn hc hd => ?_, fun c hk hn hd => ?_⟩
  · unfold safeCall
    rw [cut_eq h2, if_neg (by omega), e, hk]
    simp only
    rcases safeWalk_plan a.lay (outLay a.lay (sizeOf out)) h with ⟨hp, hw⟩ | ⟨l, l', hp, hw, hperm⟩
    · exfalso
      have := plan_two (a := a.lay) hd (out_facts hs.items hpos).2.2.2.1
      rw [hp] at this
      cases this
    · rw [hw]
      simp only
      have hf := safe_faithful hs.strides hs.items hs.item hpos hc hp
      rw [runWalk_undefined (hperm.mem_iff.mpr (hf.1 idx hb)) (by show (a.mem _).bind _ = none; rw [hx']; exact hn)]
      rfl
  · unfold unsafeCall
    rw [cut_eq h2, if_neg (by omega), e, hk]
    simp only
    have hne : a.lay.dims ≠ [] := by intro e; rw [e] at hd; cases hd
    rw [if_neg hne]
    have hm : (offs idx a.lay.strides, ((idx.headD 0 : Nat) : Int) * str (outLay a.lay (sizeOf out)) 0) ∈
        threaded a.lay.len (str a.lay 0) (str (outLay a.lay (sizeOf out)) 0) par := by
      refine (threaded_perm _ _ h).mem_iff.mpr (mem_straight.mpr ⟨idx.headD 0, ?_, ?_, rfl⟩)
      · have hwl := hs.strides
        clear h hx hx'
        generalize a.lay = b at hwl hd hb
        obtain ⟨dims, strides, it⟩ := b
        match dims, hd, idx, hb with
        | [d], _, [i], hb => show i < d * 1; have := hb.1; omega
      · have hwl := hs.strides
        clear h hx hx'
        generalize a.lay = b at hwl hd hb
        obtain ⟨dims, strides, it⟩ := b
        match dims, strides, hwl, hd, idx, hb with
        | [d], [s], _, _, [i], hb => simp [offs, str]
    rw [runWalk_undefined hm (by show (a.mem _).bind _ = none; rw [hx']; exact hn)]
    rfl

/-- The hypotheses can be met: a double of 300 to a signed byte. -/
example : convItem anyWide (.safeFloat .f64 .i8) 0x4072c00000000000 = none ∧ safeKern 12 1 = some (.safeFloat .f64 .i8) ∧
    safeCall anyWide none ⟨⟨[2], [8], 8⟩, 12, fun o => if o = 0 then some 0 else some 0x4072c00000000000⟩ 1 = .undef := by decide +kernel

end Riptide.Convert.Call
