import Verif.Window.CallLemmas
/-! What the call `TimeWindow` answers (C144). -/
namespace Riptide.Window.Call
open Riptide.Nums Riptide.Work Riptide.Window Riptide.Window.Call.Spec

theorem fnOf_code (f : Fn) : fnOf (code f) = some f := by cases f <;> rfl

theorem kernel_signed {n : Nat} {t : IT} (h : inType n = some t) (hs : t.signed = true) : kernel n = some (.int t .i64 7) := by
  unfold inType at h
  split at h <;> first | (injection h with h; subst h; first | rfl | (exact absurd hs (by decide))) | cases h

theorem kernel_unsigned {n : Nat} {t : IT} (h : inType n = some t) (hs : t.signed = false) : kernel n = some (.int t .u64 8) := by
  unfold inType at h
  split at h <;> first | (injection h with h; subst h; first | rfl | (exact absurd hs (by decide))) | cases h

theorem kernel_float {n w : Nat} (h : floatBytes n = some w) : kernel n = some (.flt w n) := by
  unfold floatBytes at h
  split at h <;> first | (injection h with h; subst h; rfl) | cases h

theorem inType_wide {n : Nat} {t : IT} (h : inType n = some t) :
    0 < t.bits ∧ (t.signed = true → ∀ x, t.InRange x → IT.i64.InRange x) ∧ (t.signed = false → ∀ x, t.InRange x → 0 ≤ x ∧ x < 2 ^ 64) := by
  have key : ∀ t : IT, t = .i8 ∨ t = .u8 ∨ t = .i16 ∨ t = .u16 ∨ t = .i32 ∨ t = .u32 ∨ t = .i64 ∨ t = .u64 →
      0 < t.bits ∧ (t.signed = true → IT.i64.lo ≤ t.lo ∧ t.hi ≤ IT.i64.hi) ∧ (t.signed = false → 0 ≤ t.lo ∧ t.hi < 2 ^ 64) := by
    rintro t (rfl | rfl | rfl | rfl | rfl | rfl | rfl | rfl) <;> decide
  obtain ⟨h1, h2, h3⟩ := key t (by
    unfold inType at h
    split at h <;> first | (injection h with h; subst h; simp) | cases h)
  refine ⟨h1, fun hs x hx => ?_, fun hs x hx => ?_⟩
  · have := h2 hs
    exact ⟨Int.le_trans this.1 hx.1, Int.le_trans hx.2 this.2⟩
  · have := h3 hs
    exact ⟨Int.le_trans this.1 hx.1, Int.lt_of_le_of_lt hx.2 this.2⟩

/-- What both theorems about integers assume of the arrays: two arrays in C order and in the order of bytes of the machine, with as many times as
values, of type int64 and in order. -/
structure Good (a b : Arr) (t : IT) (m tm : Mem) (vs ts : List Int) : Prop where
  plain : Plain a
  item : a.lay.item = t.bits / 8
  type : inType a.type = some t
  vals : Ints t a m vs
  plainT : Plain b
  itemT : b.lay.item = 8
  typeT : b.type = 7 ∨ b.type = 9
  times : Ints .i64 b tm ts
  same : vs.length = ts.length
  order : Times ts

theorem good_rows {a b : Arr} {t : IT} {m tm : Mem} {vs ts : List Int} (g : Good a b t m tm vs ts) :
    vs.length = a.lay.len ∧ ts.length = b.lay.len ∧ (∀ (i : Nat) x, vs[i]? = some x → intAt t m i = some x) ∧
      ∀ (i : Nat) x, ts[i]? = some x → intAt .i64 tm i = some x := by
  obtain ⟨h1, h2⟩ := plain_ints (inType_wide g.type).1 g.plain g.vals
  obtain ⟨h3, h4⟩ := plain_ints (t := .i64) (by decide) g.plainT g.times
  refine ⟨h1, h3, ?_, ?_⟩
  · intro i x hx; unfold intAt; rw [← g.item]; exact h2 i x hx
  · intro i x hx; unfold intAt; rw [show IT.i64.bits / 8 = b.lay.item from by rw [g.itemT]; rfl]; exact h4 i x hx

theorem call_run (flop : Nat → Fn → Nat → Nat → Nat) {a b : Arr} {m tm : Mem} (hl : a.lay.len = b.lay.len) (hb : b.type = 7 ∨ b.type = 9) {k : Kern}
    (hk : kernel a.type = some k) (f : Fn) (delta : Int) (par : Option (List Nat)) :
    call flop a m b tm (code f) delta par = run flop k f m tm delta a.lay.len par := by
  unfold call
  rw [if_neg (by omega), if_neg (by omega), hk, fnOf_code]

/-- C144, for booleans and integers with a sign: every row gets the sum or the product of its window, as int64, if no intermediate result overflows,
for every split over threads. Missing: strided arrays, times which fall, a negative delta. -/
theorem signed_partial (flop : Nat → Fn → Nat → Nat → Nat) (a b : Arr) (t : IT) (m tm : Mem) (vs ts : List Int) (g : Good a b t m tm vs ts)
    (hs : t.signed = true) (f : Fn) (delta : Int) (hd : 0 ≤ delta) (hf : ∀ i, i < vs.length → Fits f (window vs ts delta i))
    (workers : Nat) (nt : Bool) (par : Option (List Nat)) (hp : ChunkSched workers vs.length nt par) :
    call flop a m b tm (code f) delta par = .ints 7 ((List.range vs.length).map fun i => some (total f (window vs ts delta i))) := by
  obtain ⟨h1, h2, h3, h4⟩ := good_rows g
  rw [call_run flop (by rw [← h1, ← h2]; exact g.same) g.typeT (kernel_signed g.type hs)]
  have hr : ∀ i, i < vs.length → row (intOp f .i64) (intAt t m) (intAt .i64 tm) delta i = some (total f (window vs ts delta i)) := by
    intro i hi
    obtain ⟨x, l, hw, hx, hr⟩ := row_eq (intOp f .i64) (intAt t m) (intAt .i64 tm) g.same hd g.order h3 h4 hi
    have := hf i hi
    rw [hw] at this ⊢
    rw [hr, signed_ok f l x this]
  unfold run
  simp only
  rw [← h1, rows_ok _ hr hp]

/-- C144: an intermediate result which overflows is undefined behaviour. -/
theorem overflow_undefined (flop : Nat → Fn → Nat → Nat → Nat) (a b : Arr) (t : IT) (m tm : Mem) (vs ts : List Int) (g : Good a b t m tm vs ts)
    (hs : t.signed = true) (f : Fn) (delta : Int) (hd : 0 ≤ delta) (i : Nat) (hi : i < vs.length) (hf : ¬ Fits f (window vs ts delta i))
    (workers : Nat) (nt : Bool) (par : Option (List Nat)) (hp : ChunkSched workers vs.length nt par) :
    call flop a m b tm (code f) delta par = .undefined := by
  obtain ⟨h1, h2, h3, h4⟩ := good_rows g
  rw [call_run flop (by rw [← h1, ← h2]; exact g.same) g.typeT (kernel_signed g.type hs)]
  have hr : row (intOp f .i64) (intAt t m) (intAt .i64 tm) delta i = none := by
    obtain ⟨x, l, hw, hx, hr⟩ := row_eq (intOp f .i64) (intAt t m) (intAt .i64 tm) g.same hd g.order h3 h4 hi
    rw [hw] at hf
    rw [hr]
    exact signed_bad f l x ((inType_wide g.type).2.1 hs x (ints_range g.vals x (List.mem_of_getElem? hx))) hf
  unfold run rows
  simp only
  rw [← h1, elemWork_none hi hr hp]
  rfl

/-- C144, for integers without a sign: the sum or the product modulo 2^64. Missing: as above. -/
theorem unsigned_partial (flop : Nat → Fn → Nat → Nat → Nat) (a b : Arr) (t : IT) (m tm : Mem) (vs ts : List Int) (g : Good a b t m tm vs ts)
    (hs : t.signed = false) (f : Fn) (delta : Int) (hd : 0 ≤ delta)
    (workers : Nat) (nt : Bool) (par : Option (List Nat)) (hp : ChunkSched workers vs.length nt par) :
    call flop a m b tm (code f) delta par = .ints 8 ((List.range vs.length).map fun i => some (total f (window vs ts delta i) % 2 ^ 64)) := by
  obtain ⟨h1, h2, h3, h4⟩ := good_rows g
  rw [call_run flop (by rw [← h1, ← h2]; exact g.same) g.typeT (kernel_unsigned g.type hs)]
  have hr : ∀ i, i < vs.length → row (intOp f .u64) (intAt t m) (intAt .i64 tm) delta i = some (total f (window vs ts delta i) % 2 ^ 64) := by
    intro i hi
    obtain ⟨x, l, hw, hx, hr⟩ := row_eq (intOp f .u64) (intAt t m) (intAt .i64 tm) g.same hd g.order h3 h4 hi
    rw [hw, hr]
    exact unsigned_ok f l x ((inType_wide g.type).2.2 hs x (ints_range g.vals x (List.mem_of_getElem? hx)))
  unfold run
  simp only
  rw [← h1, rows_ok _ hr hp]

/-- C144, for floats: every row gets what the machine makes of its window, from the row itself backwards, in the type of the values. Missing: as
above. -/
theorem float_partial (flop : Nat → Fn → Nat → Nat → Nat) (a b : Arr) (w : Nat) (m tm : Mem) (vs : List Nat) (ts : List Int)
    (ha : Plain a) (hi : a.lay.item = w) (hw : floatBytes a.type = some w) (hv : Bits w a m vs) (hb : Plain b) (hbi : b.lay.item = 8)
    (hbt : b.type = 7 ∨ b.type = 9) (ht : Ints .i64 b tm ts) (hl : vs.length = ts.length) (ho : Times ts) (f : Fn) (delta : Int) (hd : 0 ≤ delta)
    (workers : Nat) (nt : Bool) (par : Option (List Nat)) (hp : ChunkSched workers vs.length nt par) :
    call flop a m b tm (code f) delta par =
      .floats a.type ((List.range vs.length).map fun i => chain (flop a.type f) (window vs ts delta i)) := by
  obtain ⟨h1, h2⟩ := plain_bits ha hv
  obtain ⟨h3, h4⟩ := plain_ints (t := .i64) (by decide) hb ht
  rw [call_run flop (by omega) hbt (kernel_float hw)]
  have h5 : ∀ (i : Nat) x, vs[i]? = some x → bitsAt w m i = some x := by
    intro i x hx; unfold bitsAt; have := h2 i x hx; rwa [hi] at this
  have h6 : ∀ (i : Nat) x, ts[i]? = some x → intAt .i64 tm i = some x := by
    intro i x hx; unfold intAt; rw [show IT.i64.bits / 8 = b.lay.item from by rw [hbi]; rfl]; exact h4 i x hx
  have hr : ∀ i, i < vs.length → row (fun s x => some (flop a.type f s x)) (bitsAt w m) (intAt .i64 tm) delta i =
      some ((chain (flop a.type f) (window vs ts delta i)).getD 0) := by
    intro i hi
    obtain ⟨x, l, hw, hx, hr⟩ := row_eq (fun s x => some (flop a.type f s x)) (bitsAt w m) (intAt .i64 tm) hl hd ho h5 h6 hi
    rw [hw, hr, float_ok]
    rfl
  unfold run
  simp only
  rw [← h1, rows_ok _ hr hp]
  simp only
  congr 1
  apply List.map_congr_left
  intro i hi
  have hi' : i < vs.length := by simpa using hi
  obtain ⟨x, l, hw, hx, hr⟩ := row_eq (fun s x => some (flop a.type f s x)) (bitsAt w m) (intAt .i64 tm) hl hd ho h5 h6 hi'
  rw [hw]; rfl

/-- C144: arrays with different numbers of items are refused. -/
theorem lengths_refused (flop : Nat → Fn → Nat → Nat → Nat) (a b : Arr) (m tm : Mem) (func delta : Int) (par : Option (List Nat))
    (h : a.lay.len ≠ b.lay.len) : call flop a m b tm func delta par = .lengths := by
  unfold call
  rw [if_pos h]

/-- C144: times which are not int64 are refused: also dates and times of numpy. -/
theorem time_type_refused (flop : Nat → Fn → Nat → Nat → Nat) (a b : Arr) (m tm : Mem) (func delta : Int) (par : Option (List Nat))
    (hl : a.lay.len = b.lay.len) (h : b.type ≠ 7 ∧ b.type ≠ 9) : call flop a m b tm func delta par = .timeType := by
  unfold call
  rw [if_neg (by omega), if_pos h]

/-- C144: values of any other type, and any other function, are answered by `None`, without an error. -/
theorem unknown_none (flop : Nat → Fn → Nat → Nat → Nat) (a b : Arr) (m tm : Mem) (func delta : Int) (par : Option (List Nat))
    (hl : a.lay.len = b.lay.len) (hb : b.type = 7 ∨ b.type = 9) (h : 13 < a.type ∨ ∀ f, func ≠ code f) : call flop a m b tm func delta par = .none := by
  unfold call
  rw [if_neg (by omega), if_neg (by omega)]
  rcases h with h | h
  · have : kernel a.type = none := by
      unfold kernel
      split <;> first | rfl | omega
    rw [this]
  · have : fnOf func = none := by
      unfold fnOf
      rw [if_neg (show func ≠ 0 from h .sum), if_neg (show func ≠ 1 from h .prod)]
    rw [this]
    cases kernel a.type <;> rfl

theorem runWrites_length {α : Type} {n : Nat} {ws : List (Nat × α)} {l : List (Option α)} (h : runWrites n ws = some l) : l.length = n := by
  have key : ∀ (ws : List (Nat × α)) (o l : List (Option α)), ws.foldlM (fun (out : List (Option α)) (w : Nat × α) =>
      if w.1 < out.length then some (out.set w.1 (some w.2)) else none) o = some l → l.length = o.length := by
    intro ws
    induction ws with
    | nil => intro o l h; injection h with h; rw [h]
    | cons w ws ih =>
      intro o l h
      rw [List.foldlM_cons] at h
      by_cases hw : w.1 < o.length
      · rw [if_pos hw] at h
        rw [ih _ l h, List.length_set]
      · rw [if_neg hw] at h; cases h
  rw [key ws _ l h, List.length_replicate]

/-- C144: an answer has one dimension and as many rows as there are values, whatever the shape of the arrays. -/
theorem answer_rows (flop : Nat → Fn → Nat → Nat → Nat) (a b : Arr) (m tm : Mem) (func delta : Int) (par : Option (List Nat)) (type : Nat) :
    (∀ l, call flop a m b tm func delta par = .ints type l → l.length = a.lay.len ∧ (type = 7 ∨ type = 8)) ∧
    (∀ l, call flop a m b tm func delta par = .floats type l → l.length = a.lay.len ∧ type = a.type) := by
  have hlen : ∀ {α : Type} (op : α → α → Option α) (val : Nat → Option α) (tm' : Nat → Option Int) (n : Nat) (l : List (Option α)),
      rows op val tm' delta n par = some l → l.length = n := by
    intro α op val tm' n l h
    unfold rows at h
    cases he : elemWork (row op val tm' delta) n par with
    | none => rw [he] at h; cases h
    | some ws =>
      rw [he, Option.bind_some] at h
      exact runWrites_length h
  have hno : ∀ n t out no, kernel n = some (.int t out no) → no = 7 ∨ no = 8 := by
    intro n t out no h
    unfold kernel at h
    split at h <;> first | (injection h with h; injection h with _ _ h; subst h; simp; done) | (injection h with h; cases h; done) | cases h
  have hflt : ∀ n w no, kernel n = some (.flt w no) → no = n := by
    intro n w no h
    unfold kernel at h
    split at h <;> first | (injection h with h; injection h with _ h; subst h; rfl) | (injection h with h; cases h; done) | cases h
  unfold call
  split
  · exact ⟨fun l h => (by cases h), fun l h => (by cases h)⟩
  · split
    · exact ⟨fun l h => (by cases h), fun l h => (by cases h)⟩
    · cases hk : kernel a.type with
      | none => exact ⟨fun l h => (by cases h), fun l h => (by cases h)⟩
      | some k =>
        cases hf : fnOf func with
        | none => exact ⟨fun l h => (by cases h), fun l h => (by cases h)⟩
        | some f =>
          cases k with
          | int t out no =>
            simp only [run]
            cases hr : rows (intOp f out) (intAt t m) (intAt .i64 tm) delta a.lay.len par with
            | none => exact ⟨fun l h => (by cases h), fun l h => (by cases h)⟩
            | some l' =>
              refine ⟨fun l h => ?_, fun l h => by cases h⟩
              injection h with h1 h2
              subst h1; subst h2
              exact ⟨hlen _ _ _ _ _ hr, hno _ _ _ _ hk⟩
          | flt w no =>
            simp only [run]
            cases hr : rows (fun s x => some (flop no f s x)) (bitsAt w m) (intAt .i64 tm) delta a.lay.len par with
            | none => exact ⟨fun l h => (by cases h), fun l h => (by cases h)⟩
            | some l' =>
              refine ⟨fun l h => (by cases h), fun l h => ?_⟩
              injection h with h1 h2
              subst h1; subst h2
              exact ⟨hlen _ _ _ _ _ hr, hflt _ _ _ hk⟩

end Riptide.Window.Call
