import Verif.Ema.Lemmas
import Verif.Rolling.SumProps
import Verif.Window.Props
/-! Cumulative sums and products, and running counts (C73, C75). -/
namespace Riptide.Ema

variable {S T U : Type}

/-- The key of row `i`. -/
def keyAt (key : List Int) (i : Nat) : Int := key.getD i 0

/-- What `EmaAll32` is given for `n` rows: masks of that length and keys not above `uniq`; negative keys
and 0 mean "no group". -/
structure Ok (m : Masks) (key : List Int) (uniq n : Nat) : Prop where
  fit : m.Fit n
  len : key.length = n
  le : ∀ k ∈ key, k ≤ uniq

theorem Ok.key {m : Masks} {key : List Int} {uniq n : Nat} (h : Ok m key uniq n) (i : Nat) (hi : i < n) :
    key[i]? = some (keyAt key i) := getElem?_getD key i 0 (by have := h.len; omega)

theorem Ok.key_le {m : Masks} {key : List Int} {uniq n : Nat} (h : Ok m key uniq n) (i : Nat)
    (hi : i < n) : keyAt key i ≤ uniq := h.le _ (List.mem_of_getElem? (h.key i hi))

/-- C73, any arithmetic: every row of a group holds the left-to-right fold of the live values of its
group, and every other row the invalid value.  Every row is written. -/
theorem cumulate_spec (zero : U) (add : U → T → U) (inv : U) (m : Masks) (key : List Int) (src : List T)
    (d : T) (uniq n : Nat) (h : Ok m key uniq n) (hs : src.length = n) :
    ∃ out, cumulate zero add inv m key src uniq n = some out ∧ out.length = n ∧
      ∀ i, i < n → out[i]? = some (some (if 1 ≤ keyAt key i then
        ((Spec.live (keyAt key) m.incAt m.rstAt i).map fun j => src.getD j d).foldl add zero
        else inv)) := by
  obtain ⟨out, h1, h2, h3⟩ := guarded_spec
    (cellFun m.incAt m.rstAt (fun j => src.getD j d) add fun _ x => add zero x) zero key (keyAt key)
    uniq n (some inv) (maskedCell m add (fun _ x => add zero x) src) (fun (c : U) _ => c) h.key
    (fun i hi c => maskedCell_eq m add _ src _ n i h.fit hi (getElem?_getD src i d (by omega)) c)
    h.key_le
  refine ⟨out, h1, h2, fun i hi => ?_⟩
  rw [h3 i hi]
  have := live_rel_at m.incAt m.rstAt (fun j => src.getD j d) add (fun _ x => add zero x) zero
    (keyAt key) (fun l c => c = l.foldl add zero) rfl
    (fun l c v e => by rw [e, List.foldl_append]; rfl) (fun c v => rfl) i
  rw [this]
  split <;> rfl

theorem wide_bits (t : IT) : 0 < (wide t).bits := by unfold wide; split <;> decide

theorem foldl_add_wrap (u : IT) (l : List Int) (a : Int) :
    l.foldl (fun c (x : Int) => u.wrap (c + u.wrap x)) (u.wrap a) = u.wrap (a + l.sum) := by
  induction l generalizing a with
  | nil => simp
  | cons x l ih =>
    rw [List.foldl_cons, Rolling.wrap_add, ih, List.sum_cons, Int.add_assoc]

theorem wrap_mul_left (u : IT) (a b : Int) : u.wrap (u.wrap a * b) = u.wrap (a * b) := by
  have key : ∀ y : Int, u.wrap y = y + (2 : Int) ^ u.bits * (-((y - u.lo) / (2 : Int) ^ u.bits)) := by
    intro y
    unfold IT.wrap
    have := Int.emod_add_mul_ediv (y - u.lo) ((2 : Int) ^ u.bits)
    rw [Int.mul_neg]; omega
  have h : u.wrap a * b = a * b + (2 : Int) ^ u.bits * (-((a - u.lo) / (2 : Int) ^ u.bits) * b) := by
    rw [key a, Int.add_mul, Int.mul_assoc]
  rw [h]
  unfold IT.wrap
  rw [show a * b + (2 : Int) ^ u.bits * (-((a - u.lo) / (2 : Int) ^ u.bits) * b) - u.lo
      = (a * b - u.lo) + (2 : Int) ^ u.bits * (-((a - u.lo) / (2 : Int) ^ u.bits) * b) by omega,
    Int.add_mul_emod_self_left]

/-- The product of a list of integers. -/
def prod (l : List Int) : Int := l.foldr (· * ·) 1

theorem foldl_mul_wrap (u : IT) (l : List Int) (a : Int) :
    l.foldl (fun c (x : Int) => u.wrap (c * x)) (u.wrap a) = u.wrap (a * prod l) := by
  induction l generalizing a with
  | nil => simp [prod]
  | cons x l ih =>
    rw [List.foldl_cons, wrap_mul_left, ih]
    unfold prod
    rw [List.foldr_cons, Int.mul_assoc]

/-- C73: the running total of an integer column, exactly when it fits the 64-bit output, otherwise
modulo `2^64`. -/
theorem cumSum_spec (t : IT) (m : Masks) (key src : List Int) (uniq n : Nat) (h : Ok m key uniq n)
    (hs : src.length = n) :
    ∃ out, cumSum t m key src uniq n = some out ∧ out.length = n ∧
      ∀ i, i < n → out[i]? = some (some (if 1 ≤ keyAt key i then
        (wide t).wrap ((Spec.live (keyAt key) m.incAt m.rstAt i).map fun j => src.getD j 0).sum
        else (wide t).inv)) := by
  obtain ⟨out, h1, h2, h3⟩ := cumulate_spec 0
    (fun c (x : Int) => (wide t).wrap (c + (wide t).wrap x)) (wide t).inv m key src 0 uniq n h hs
  refine ⟨out, h1, h2, fun i hi => ?_⟩
  rw [h3 i hi]
  have := foldl_add_wrap (wide t)
    ((Spec.live (keyAt key) m.incAt m.rstAt i).map fun j => src.getD j 0) 0
  rw [GroupBy.wrap_zero _ (wide_bits t), Int.zero_add] at this
  rw [this]

theorem wide_one (t : IT) : (wide t).wrap 1 = 1 := by unfold wide; split <;> decide

/-- C73: the running product of an integer column. -/
theorem cumProd_spec (t : IT) (m : Masks) (key src : List Int) (uniq n : Nat) (h : Ok m key uniq n)
    (hs : src.length = n) :
    ∃ out, cumProd t m key src uniq n = some out ∧ out.length = n ∧
      ∀ i, i < n → out[i]? = some (some (if 1 ≤ keyAt key i then
        (wide t).wrap (prod ((Spec.live (keyAt key) m.incAt m.rstAt i).map fun j => src.getD j 0))
        else (wide t).inv)) := by
  obtain ⟨out, h1, h2, h3⟩ := cumulate_spec 1
    (fun c (x : Int) => (wide t).wrap (c * x)) (wide t).inv m key src 0 uniq n h hs
  refine ⟨out, h1, h2, fun i hi => ?_⟩
  rw [h3 i hi]
  have := foldl_mul_wrap (wide t)
    ((Spec.live (keyAt key) m.incAt m.rstAt i).map fun j => src.getD j 0) 1
  rw [wide_one, Int.one_mul] at this
  rw [this]

/-- A row whose live values add up within the output type holds that total itself. -/
theorem cumSum_exact (t : IT) (m : Masks) (key src : List Int) (uniq n : Nat) (h : Ok m key uniq n)
    (hs : src.length = n) (i : Nat) (hi : i < n) (hk : 1 ≤ keyAt key i)
    (hr : (wide t).InRange
      ((Spec.live (keyAt key) m.incAt m.rstAt i).map fun j => src.getD j 0).sum) :
    ∃ out, cumSum t m key src uniq n = some out ∧ out[i]? = some (some
      ((Spec.live (keyAt key) m.incAt m.rstAt i).map fun j => src.getD j 0).sum) := by
  obtain ⟨out, h1, _, h3⟩ := cumSum_spec t m key src uniq n h hs
  refine ⟨out, h1, ?_⟩
  rw [h3 i hi, if_pos hk, IT.wrap_of_inRange _ (wide_bits t) hr]

/-- Two groups, a row without a group, a filter and a reset. -/
example : Ok ⟨some [true, true, true, false, true, true], some [false, false, false, true, true, false]⟩
    [1, 2, 1, 1, 2, 0] 2 6 :=
  ⟨⟨fun l h => by cases h; rfl, fun l h => by cases h; rfl⟩, rfl, by decide⟩

example : cumSum .i32 ⟨some [true, true, true, false, true, true],
      some [false, false, false, true, true, false]⟩
    [1, 2, 1, 1, 2, 0] [10, 20, 30, 40, 50, 60] 2 6 =
    some [some 10, some 20, some 40, some 40, some 50, some (-9223372036854775808)] := by decide

example : cumProd .u8 ⟨none, some [false, false, false, true]⟩ [1, 1, 1, 1] [2, 3, 4, 5] 1 4 =
    some [some 2, some 6, some 24, some 5] := by decide

/-- The column's length is not compared with the key's (`src/Ema.cpp:2396-2417` look only at the masks
and the times): a shorter column is read outside. -/
theorem cumSum_short_column :
    cumSum .i32 ⟨none, none⟩ [1, 1] [5] 1 2 = none := by decide

/-- A key above `numUnique` reads and writes outside the work space. -/
theorem cumSum_key_above : cumSum .i32 ⟨none, none⟩ [2] [5] 1 1 = none := by decide

/-- The invalid value of an integer column is added as the number that encodes it. -/
theorem cumSum_adds_invalid :
    cumSum .i8 ⟨none, none⟩ [1, 1] [IT.i8.inv, 1] 1 2 = some [some (-128), some (-127)] := by decide

/-! ## Running counts -/

/-- Whether row `i` is included. -/
def incOf (inc : Option (List Bool)) (i : Nat) : Bool := (⟨inc, none⟩ : Masks).incAt i

theorem upTo_eq (key : Nat → Int) (inc : Nat → Bool) (i : Nat) :
    Spec.upTo key inc i = (rowsBelow key (key i) (i + 1)).filter inc := by
  unfold Spec.upTo rowsBelow
  rw [List.filter_filter]
  refine List.filter_congr fun j _ => ?_
  rw [Bool.and_comm]

/-- The count cell after one more row. -/
def nthFun (inc : Nat → Bool) (c : Int) (i : Nat) : Int := if inc i then IT.i32.wrap (c + 1) else c

theorem foldl_nthFun (inc : Nat → Bool) (g : List Nat) (hg : g.length < 2 ^ 31) (a : Nat)
    (ha : a + g.length < 2 ^ 31) :
    g.foldl (nthFun inc) (a : Int) = ((a + (g.filter inc).length : Nat) : Int) := by
  induction g generalizing a with
  | nil => simp
  | cons x g ih =>
    rw [List.length_cons] at hg ha
    rw [List.foldl_cons, List.filter_cons]
    unfold nthFun
    cases inc x with
    | false => exact ih (by omega) a (by omega)
    | true =>
      have : IT.i32.wrap ((a : Int) + 1) = ((a + 1 : Nat) : Int) := by
        rw [IT.wrap_of_inRange IT.i32 (by decide)]
        · omega
        · unfold IT.InRange
          have : IT.i32.lo = -2147483648 := by decide
          have : IT.i32.hi = 2147483647 := by decide
          omega
      simp only [if_true, this]
      rw [show (fun c i => if inc i = true then IT.i32.wrap (c + 1) else c) = nthFun inc from rfl,
        ih (by omega) (a + 1) (by omega), List.length_cons]
      omega

theorem rowsBelow_length (key : Nat → Int) (k : Int) (n : Nat) : (rowsBelow key k n).length ≤ n := by
  have := List.length_filter_le (fun j => decide (key j = k)) (List.range n)
  rw [List.length_range] at this
  exact this

/-- C75: a row of a group that passes the filter holds its number among such rows of its group,
counted from 1, and every other row 0. -/
theorem findNth_spec (inc : Option (List Bool)) (key : List Int) (uniq n : Nat)
    (h : Ok ⟨inc, none⟩ key uniq n) (hn : n < 2 ^ 31) :
    ∃ out, findNth inc key uniq n = some out ∧ out.length = n ∧
      ∀ i, i < n → out[i]? = some (some (if 1 ≤ keyAt key i ∧ incOf inc i = true then
        ((Spec.upTo (keyAt key) (incOf inc) i).length : Int) else 0)) := by
  obtain ⟨out, h1, h2, h3⟩ := rowLoop_spec (nthRow inc key)
    (CellsAt (nthFun (incOf inc)) (fun _ => 0) (keyAt key) 1 uniq)
    (fun i o => o = some (if 1 ≤ keyAt key i ∧ incOf inc i = true then
        ((Spec.upTo (keyAt key) (incOf inc) i).length : Int) else 0))
    (List.replicate (uniq + 1) 0) (cells_init _ _ _ _ _) n (by
      intro i ws hi hinv
      unfold nthRow
      rw [h.key i hi, Option.bind_some]
      have hskip : (1 ≤ keyAt key i → incOf inc i = false) →
          CellsAt (nthFun (incOf inc)) (fun _ => 0) (keyAt key) 1 uniq (i + 1) ws := by
        intro hx
        refine ⟨hinv.1, fun k hk1 hk2 => ?_⟩
        rw [rowsBelow_succ, hinv.2 k hk1 hk2]
        by_cases e : keyAt key i = k
        · have := hx (by omega)
          rw [if_pos e, List.foldl_append]
          simp [nthFun, this]
        · rw [if_neg e, List.append_nil]
      by_cases hk : 1 ≤ keyAt key i
      · rw [if_pos hk]
        have hinc : included inc i = some (incOf inc i) := by
          cases inc with
          | none => rfl
          | some a => exact getElem?_getD a i true (by have := h.fit.1 a rfl; omega)
        rw [hinc, Option.bind_some]
        cases hb : incOf inc i with
        | false =>
          refine ⟨ws, some 0, rfl, hskip fun _ => hb, ?_⟩
          rw [if_neg (by simp)]
        | true =>
          obtain ⟨ws', ht, hinv'⟩ := touch_spec (nthFun (incOf inc)) (fun _ => 0) (keyAt key) 1 uniq i ws
            (fun (c : Int) _ => some (IT.i32.wrap (c + 1))) (fun (c : Int) _ => c)
            (fun c => by simp [nthFun, hb]) (by omega) hk (h.key_le i hi) hinv
          refine ⟨ws', _, ht, hinv', ?_⟩
          have := rowsBelow_length (keyAt key) (keyAt key i) (i + 1)
          have hf := foldl_nthFun (incOf inc) (rowsBelow (keyAt key) (keyAt key i) (i + 1)) (by omega) 0
            (by omega)
          rw [if_pos ⟨hk, rfl⟩, upTo_eq]
          rw [show ((0 : Nat) : Int) = 0 from rfl, Nat.zero_add] at hf
          rw [hf]
      · rw [if_neg hk]
        refine ⟨ws, some 0, rfl, hskip fun hx => absurd hx hk, ?_⟩
        rw [if_neg fun hx => hk hx.1])
  refine ⟨out, h1, h2, fun i hi => ?_⟩
  obtain ⟨o, ho, rfl⟩ := h3 i hi
  exact ho

/-- The condition on keys and masks holds for two groups with a filter. -/
example : Ok ⟨some [true, true, false, true, true], none⟩ [1, 2, 1, 1, 0] 2 5 :=
  ⟨⟨fun l h => by cases h; rfl, fun l h => by cases h⟩, rfl, by decide⟩

example : findNth (some [true, true, false, true, true]) [1, 2, 1, 1, 0] 2 5 =
    some [some 1, some 1, some 0, some 2, some 0] := by decide

end Riptide.Ema
