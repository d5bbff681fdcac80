import Verif.Ema.CumProps
/-! Cumulative minimum and maximum (C74). -/
namespace Riptide.Ema

variable {S T U : Type}

/-- The invalid value is invalid, and among valid values `better` is the strict order of a key. -/
structure Kind.Lawful (k : Kind T) (key : T → Int) : Prop where
  inv : k.valid k.inv = false
  better : ∀ a b, k.valid a = true → k.valid b = true → k.better a b = decide (key a < key b)

theorem intMin_lawful (t : IT) : (intMin t).Lawful id :=
  ⟨by simp [intMin], fun a b _ _ => rfl⟩

theorem intMax_lawful (t : IT) : (intMax t).Lawful fun x => -x :=
  ⟨by simp [intMax], fun a b _ _ => by simp only [intMax]; congr 1; exact propext ⟨fun h => by omega, fun h => by omega⟩⟩

theorem floatMin_lawful (f : FT) (nan : Nat) (h : f.isNan nan = true) : (floatMin f nan).Lawful f.key :=
  ⟨by simp [floatMin, h], fun a b ha hb => by
    simp only [floatMin, Bool.not_eq_true'] at ha hb
    simp [floatMin, FT.lt, ha, hb]⟩

theorem floatMax_lawful (f : FT) (nan : Nat) (h : f.isNan nan = true) :
    (floatMax f nan).Lawful fun x => -f.key x :=
  ⟨by simp [floatMax, h], fun a b ha hb => by
    simp only [floatMax, Bool.not_eq_true'] at ha hb
    simp only [floatMax, FT.lt, ha, hb, Bool.not_false, Bool.true_and]
    congr 1
    exact propext ⟨fun h => by omega, fun h => by omega⟩⟩

section
variable (k : Kind T) (key : T → Int) (hk : k.Lawful key)
include hk

/-- One more valid value. -/
theorem best_snoc (vals : List T) (c x : T) (hv : ∀ y ∈ vals, k.valid y = true)
    (hx : k.valid x = true) (h : Spec.Best k.better vals c) :
    Spec.Best k.better (vals ++ [x]) (if k.better x c then x else c) := by
  have hc := hv c h.1
  rw [hk.better x c hx hc]
  have hle : ∀ y ∈ vals, key c ≤ key y := by
    intro y hy
    have := h.2 y hy
    rw [hk.better y c (hv y hy) hc] at this
    simpa using this
  by_cases e : key x < key c
  · rw [if_pos (by simpa using e)]
    refine ⟨by simp, fun y hy => ?_⟩
    rcases List.mem_append.1 hy with hy | hy
    · rw [hk.better y x (hv y hy) hx]
      have := hle y hy
      simpa using by omega
    · rw [List.mem_singleton.1 hy, hk.better x x hx hx]; simp
  · rw [if_neg (by simpa using e)]
    refine ⟨List.mem_append_left _ h.1, fun y hy => ?_⟩
    rcases List.mem_append.1 hy with hy | hy
    · exact h.2 y hy
    · rw [List.mem_singleton.1 hy, hk.better x c hx hc]
      simpa using by omega

theorem best_one (x : T) (hx : k.valid x = true) : Spec.Best k.better [x] x := by
  refine ⟨by simp, fun y hy => ?_⟩
  rw [List.mem_singleton.1 hy, hk.better x x hx hx]; simp

theorem nan_one (x : T) : Spec.NanBest k.valid k.better [x] x := by
  unfold Spec.NanBest
  cases h : k.valid x with
  | false => simp [h]
  | true =>
    rw [show List.filter k.valid [x] = [x] by simp [h], if_neg (by simp)]
    exact best_one k key hk x h

theorem nan_snoc (vals : List T) (c x : T) (h : Spec.NanBest k.valid k.better vals c) :
    Spec.NanBest k.valid k.better (vals ++ [x]) (nanAdd k c x) := by
  unfold Spec.NanBest at h ⊢
  unfold nanAdd
  rw [List.filter_append]
  cases hx : k.valid x with
  | false =>
    rw [show List.filter k.valid [x] = [] by simp [hx], List.append_nil]
    exact h
  | true =>
    rw [show List.filter k.valid [x] = [x] by simp [hx], if_neg (by simp), if_pos rfl]
    by_cases e : vals.filter k.valid = []
    · rw [if_pos e] at h
      rw [e, h]
      exact best_one k key hk x hx
    · rw [if_neg e] at h
      have hval : ∀ y ∈ vals.filter k.valid, k.valid y = true := fun y hy => (List.mem_filter.1 hy).2
      rw [hval c h.1]
      exact best_snoc k key hk _ c x hval hx h

/-- The cell of the strict extreme: whether a value was seen, and the extreme so far. -/
def StrictCell (k : Kind T) (vals : List T) (c : T × Bool) : Prop :=
  c.2 = decide (vals ≠ []) ∧ Spec.StrictBest k.valid k.better vals c.1

theorem strict_one (x : T) : StrictCell k [x] (x, true) := by
  refine ⟨by simp, ?_⟩
  unfold Spec.StrictBest
  cases h : k.valid x with
  | false => simp [h]
  | true =>
    rw [if_neg (by simp [h])]
    exact best_one k key hk x h

theorem strict_snoc (vals : List T) (c : T × Bool) (x : T) (h : StrictCell k vals c) :
    StrictCell k (vals ++ [x]) (strictAdd k c x) := by
  obtain ⟨c, seen⟩ := c
  obtain ⟨hs, hb⟩ := h
  dsimp only at hs hb
  unfold strictAdd
  dsimp only
  by_cases e : vals = []
  · subst e
    rw [hs]
    exact strict_one k key hk x
  · have hseen : seen = true := by rw [hs]; simpa using e
    subst hseen
    rw [if_neg (by simp)]
    unfold Spec.StrictBest at hb
    cases hx : k.valid x with
    | false =>
      simp only [Bool.not_false, Bool.true_or, if_true]
      refine ⟨by simp, ?_⟩
      unfold Spec.StrictBest
      rw [if_pos (.inr ⟨x, by simp, hx⟩)]
      exact hx
    | true =>
      simp only [Bool.not_true, Bool.false_or]
      by_cases hi : ∃ y ∈ vals, k.valid y = false
      · rw [if_pos (.inr hi)] at hb
        rw [hb]
        simp only [Bool.false_and, Bool.false_eq_true, if_false]
        refine ⟨by simp, ?_⟩
        unfold Spec.StrictBest
        obtain ⟨y, hy, hy'⟩ := hi
        rw [if_pos (.inr ⟨y, List.mem_append_left _ hy, hy'⟩)]
        exact hb
      · rw [if_neg (fun h => h.elim e hi)] at hb
        have hval : ∀ y ∈ vals, k.valid y = true := by
          intro y hy
          cases hv : k.valid y with
          | true => rfl
          | false => exact absurd ⟨y, hy, hv⟩ hi
        rw [hval c hb.1, Bool.true_and]
        have := best_snoc k key hk vals c x hval hx hb
        have hall : ¬(vals ++ [x] = [] ∨ ∃ y ∈ vals ++ [x], k.valid y = false) := by
          rintro (h | ⟨y, hy, hy'⟩)
          · simp at h
          · rcases List.mem_append.1 hy with hy | hy
            · rw [hval y hy] at hy'; cases hy'
            · rw [List.mem_singleton.1 hy, hx] at hy'; cases hy'
        cases hbt : k.better x c with
        | true =>
          rw [hbt] at this
          refine ⟨by simp, ?_⟩
          unfold Spec.StrictBest
          rw [if_neg hall]
          exact this
        | false =>
          rw [hbt] at this
          refine ⟨by simp, ?_⟩
          unfold Spec.StrictBest
          rw [if_neg hall]
          exact this

end

/-- With a mask, or without one and no negative key, the loop runs and every row of a group holds what
the fold over its group gives. -/
theorem extremeLoop_spec (m : Masks) (key : List Int) (uniq n : Nat) (f : S → Nat → S) (init : S)
    (cell : S → Nat → Option S) (out : S → T) (h : Ok m key uniq n)
    (hneg : m.inc = none → m.rst = none → ∀ j ∈ key, 0 ≤ j)
    (hc : ∀ i, i < n → ∀ c, cell c i = some (f c i)) :
    ∃ res, extremeLoop m key cell out uniq n init = some res ∧ res.length = n ∧
      ∀ i, i < n → 1 ≤ keyAt key i → res[i]? = some (some
        (out ((rowsBelow (keyAt key) (keyAt key i) (i + 1)).foldl f init))) := by
  have hg : ∃ res, rowLoop (guarded none key cell fun c _ => out c) n
        (List.replicate (uniq + 1) init) = some res ∧ res.length = n ∧
      ∀ i, i < n → 1 ≤ keyAt key i → res[i]? = some (some
        (out ((rowsBelow (keyAt key) (keyAt key i) (i + 1)).foldl f init))) := by
    obtain ⟨res, h1, h2, h3⟩ := guarded_spec f init key (keyAt key) uniq n none cell
      (fun c _ => out c) h.key hc h.key_le
    exact ⟨res, h1, h2, fun i hi hk => by rw [h3 i hi, if_pos hk]⟩
  obtain ⟨inc, rst⟩ := m
  unfold extremeLoop
  cases inc with
  | some a => exact hg
  | none =>
    cases rst with
    | some r => exact hg
    | none =>
      obtain ⟨res, h1, h2, h3⟩ := unguarded_spec f init key (keyAt key) uniq n cell
        (fun c _ => out c) h.key hc fun i hi =>
          ⟨hneg rfl rfl _ (List.mem_of_getElem? (h.key i hi)), h.key_le i hi⟩
      exact ⟨res, h1, h2, fun i hi _ => h3 i hi⟩

/-- C74 for `CumNanExtreme`, the rows of a group: the extreme of the valid values among the live rows.
The statement for the remaining rows, that they are invalid, does not hold
(`cumNanExtreme_no_group_false`), and negative keys without a mask are excluded. -/
theorem cumNanExtreme_partial (k : Kind T) (ord : T → Int) (hk : k.Lawful ord) (m : Masks)
    (key : List Int) (src : List T) (d : T) (uniq n : Nat) (h : Ok m key uniq n)
    (hs : src.length = n) (hneg : m.inc = none → m.rst = none → ∀ j ∈ key, 0 ≤ j) :
    ∃ out, cumNanExtreme k m key src uniq n = some out ∧ out.length = n ∧
      ∀ i, i < n → 1 ≤ keyAt key i → ∃ v, out[i]? = some (some v) ∧
        Spec.NanBest k.valid k.better
          ((Spec.live (keyAt key) m.incAt m.rstAt i).map fun j => src.getD j d) v := by
  obtain ⟨out, h1, h2, h3⟩ := extremeLoop_spec m key uniq n
    (cellFun m.incAt m.rstAt (fun j => src.getD j d) (nanAdd k) fun _ x => x) k.inv
    (maskedCell m (nanAdd k) (fun _ x => x) src) id h hneg
    (fun i hi c => maskedCell_eq m (nanAdd k) _ src _ n i h.fit hi (getElem?_getD src i d (by omega)) c)
  refine ⟨out, h1, h2, fun i hi hki => ⟨_, h3 i hi hki, ?_⟩⟩
  exact live_rel_at m.incAt m.rstAt (fun j => src.getD j d) (nanAdd k) (fun _ x => x) k.inv
    (keyAt key) (Spec.NanBest k.valid k.better) (by simpa [Spec.NanBest] using hk.inv)
    (fun l c v => nan_snoc k ord hk l c v) (fun _ v => nan_one k ord hk v) i

/-- C74 for `CumExtreme`, the rows of a group: invalid once a live row is, otherwise the extreme.
Missing: as for `cumNanExtreme_partial`. -/
theorem cumExtreme_partial (k : Kind T) (ord : T → Int) (hk : k.Lawful ord) (m : Masks)
    (key : List Int) (src : List T) (d : T) (uniq n : Nat) (h : Ok m key uniq n)
    (hs : src.length = n) (hneg : m.inc = none → m.rst = none → ∀ j ∈ key, 0 ≤ j) :
    ∃ out, cumExtreme k m key src uniq n = some out ∧ out.length = n ∧
      ∀ i, i < n → 1 ≤ keyAt key i → ∃ v, out[i]? = some (some v) ∧
        Spec.StrictBest k.valid k.better
          ((Spec.live (keyAt key) m.incAt m.rstAt i).map fun j => src.getD j d) v := by
  obtain ⟨out, h1, h2, h3⟩ := extremeLoop_spec m key uniq n
    (cellFun m.incAt m.rstAt (fun j => src.getD j d) (strictAdd k) fun _ x => (x, true)) (k.inv, false)
    (maskedCell m (strictAdd k) (fun _ x => (x, true)) src) Prod.fst h hneg
    (fun i hi c => maskedCell_eq m (strictAdd k) _ src _ n i h.fit hi
      (getElem?_getD src i d (by omega)) c)
  refine ⟨out, h1, h2, fun i hi hki => ⟨_, h3 i hi hki, ?_⟩⟩
  have := live_rel_at m.incAt m.rstAt (fun j => src.getD j d) (strictAdd k) (fun _ x => (x, true))
    (k.inv, false) (keyAt key) (StrictCell k) ⟨by simp, by simpa [Spec.StrictBest] using hk.inv⟩
    (fun l c v => strict_snoc k ord hk l c v) (fun _ v => strict_one k ord hk v) i
  exact this.2

/-- Without masks the rows of key 0 are not invalid: they are a group of their own.  (Float columns
alike.) -/
theorem cumNanExtreme_no_group_false :
    cumNanExtreme (intMin .i32) ⟨none, none⟩ [0, 1, 0] [7, 5, 3] 1 3 =
      some [some 7, some 5, some 3] ∧ (7 : Int) ≠ IT.i32.inv := by decide

/-- The same for `CumExtreme`. -/
theorem cumExtreme_no_group_false :
    cumExtreme (intMax .i32) ⟨none, none⟩ [0, 1, 0] [7, 5, 9] 1 3 =
      some [some 7, some 5, some 9] ∧ (9 : Int) ≠ IT.i32.inv := by decide

/-- With a filter or a reset mask the rows of key 0 are not written: the caller sees whatever the
new array's memory held. -/
theorem cumExtreme_unwritten (k : Kind T) (m : Masks) (hm : m.inc ≠ none ∨ m.rst ≠ none)
    (key : List Int) (src : List T) (d : T) (uniq n : Nat) (h : Ok m key uniq n)
    (hs : src.length = n) :
    (∃ out, cumExtreme k m key src uniq n = some out ∧
      ∀ i, i < n → keyAt key i ≤ 0 → out[i]? = some none) ∧
    ∃ out, cumNanExtreme k m key src uniq n = some out ∧
      ∀ i, i < n → keyAt key i ≤ 0 → out[i]? = some none := by
  have he : ∀ {S : Type} (cell : S → Nat → Option S) (o : S → T) (init : S),
      extremeLoop m key cell o uniq n init =
        rowLoop (guarded none key cell fun c _ => o c) n (List.replicate (uniq + 1) init) := by
    intro S cell o init
    obtain ⟨inc, rst⟩ := m
    unfold extremeLoop
    cases inc with
    | some a => rfl
    | none =>
      cases rst with
      | some r => rfl
      | none => simp at hm
  constructor
  · obtain ⟨out, h1, _, h3⟩ := guarded_spec
      (cellFun m.incAt m.rstAt (fun j => src.getD j d) (strictAdd k) fun _ x => (x, true))
      (k.inv, false) key (keyAt key) uniq n none
      (maskedCell m (strictAdd k) (fun _ x => (x, true)) src) (fun c _ => Prod.fst c) h.key
      (fun i hi c => maskedCell_eq m (strictAdd k) _ src _ n i h.fit hi
        (getElem?_getD src i d (by omega)) c) h.key_le
    refine ⟨out, by rw [cumExtreme, he]; exact h1, fun i hi hki => ?_⟩
    rw [h3 i hi, if_neg (by omega)]
  · obtain ⟨out, h1, _, h3⟩ := guarded_spec
      (cellFun m.incAt m.rstAt (fun j => src.getD j d) (nanAdd k) fun _ x => x)
      k.inv key (keyAt key) uniq n none
      (maskedCell m (nanAdd k) (fun _ x => x) src) (fun (c : T) _ => id c) h.key
      (fun i hi c => maskedCell_eq m (nanAdd k) _ src _ n i h.fit hi
        (getElem?_getD src i d (by omega)) c) h.key_le
    refine ⟨out, by rw [cumNanExtreme, he]; exact h1, fun i hi hki => ?_⟩
    rw [h3 i hi, if_neg (by omega)]

/-- Without masks a negative key writes before the work space. -/
theorem cumNanExtreme_negative_key :
    cumNanExtreme (intMin .i32) ⟨none, none⟩ [-1] [7] 1 1 = none := by decide

/-- The hypotheses hold: a filter, a reset, two groups, invalid values. -/
example : Ok ⟨some [true, true, false, true, true], some [false, false, false, false, true]⟩
    [1, 1, 1, 2, 1] 2 5 :=
  ⟨⟨fun l h => by cases h; rfl, fun l h => by cases h; rfl⟩, rfl, by decide⟩

example : cumNanExtreme (intMax .i32) ⟨some [true, true, false, true, true],
      some [false, false, false, false, true]⟩ [1, 1, 1, 2, 1] [4, IT.i32.inv, 9, 8, 2] 2 5 =
    some [some 4, some 4, some 4, some 8, some 2] := by decide

example : cumExtreme (intMax .i32) ⟨some [true, true, false, true, true],
      some [false, false, false, false, true]⟩ [1, 1, 1, 2, 1] [4, IT.i32.inv, 9, 8, 2] 2 5 =
    some [some 4, some IT.i32.inv, some IT.i32.inv, some 8, some 2] := by decide

example : ∀ j ∈ ([0, 1, 0] : List Int), 0 ≤ j := by decide

example : FT.f64.isNan 0x7ff8000000000000 = true := by decide

end Riptide.Ema
