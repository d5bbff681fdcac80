import Verif.Hash.MultiKeySpec
import Verif.Hash.MemberProps
import Verif.Hash.BytesProps
import Verif.Hash.LoopLemmas
/-! # Lemmas on rows of several arrays -/
namespace Riptide.Hash
open Spec Riptide.Work

/-! ## Rows -/

theorem mul_step {n w i : Nat} (hi : i < n) : i * w + w ≤ n * w := by
  have := Nat.mul_le_mul_right w (show i + 1 ≤ n by omega)
  rw [Nat.succ_mul] at this
  exact this

theorem item_length {n : Nat} {c : KeyCol} (h : IsArray n c) {i : Nat} (hi : i < n) : (item c i).length = c.width := by
  have := mul_step (w := c.width) hi
  have h2 := h.2
  rw [item, List.length_take, List.length_drop]
  omega

theorem cellAt_item {n : Nat} {c : KeyCol} (h : IsArray n c) {i : Nat} (hi : i < n) : cellAt c.width c.data i = some (item c i) := by
  have := mul_step (w := c.width) hi
  rw [cellAt, if_pos (by rw [h.2]; exact this), item]

theorem flatten_length {w : Nat} : ∀ {L : List (List UInt8)}, (∀ x ∈ L, x.length = w) → L.flatten.length = L.length * w
  | [], _ => by simp
  | x :: L, h => by
    have ih := flatten_length (L := L) (fun y hy => h y (by simp [hy]))
    rw [List.flatten_cons, List.length_append, ih, h x (by simp), List.length_cons, Nat.succ_mul]
    omega

theorem flatten_cell {w : Nat} : ∀ {L : List (List UInt8)} (_ : ∀ x ∈ L, x.length = w) (i : Nat) (hi : i < L.length),
    (L.flatten.drop (i * w)).take w = L[i]
  | [], _, i, hi => by simp at hi
  | x :: L, h, 0, _ => by
    have hx := h x (by simp)
    simp [← hx]
  | x :: L, h, i + 1, hi => by
    have hx := h x (by simp)
    have ih := flatten_cell (L := L) (fun y hy => h y (by simp [hy])) i (by simpa using hi)
    rw [List.flatten_cons, Nat.succ_mul, List.drop_append, List.drop_eq_nil_of_le (by omega), List.nil_append,
      show i * w + w - x.length = i * w by omega, ih]
    rfl

/-- Rows of arrays of the same widths are told apart by their bytes. -/
theorem flatten_inj : ∀ {u v : List (List UInt8)}, u.map List.length = v.map List.length → u.flatten = v.flatten → u = v
  | [], [], _, _ => rfl
  | [], _ :: _, h, _ => by simp at h
  | _ :: _, [], h, _ => by simp at h
  | x :: u, y :: v, h, he => by
    simp only [List.map_cons, List.cons.injEq] at h
    rw [List.flatten_cons, List.flatten_cons] at he
    obtain ⟨h1, h2⟩ := List.append_inj he h.1
    rw [h1, flatten_inj h.2 h2]

theorem row_length {n : Nat} {cols : List KeyCol} (h : ∀ c ∈ cols, IsArray n c) {i : Nat} (hi : i < n) :
    (cols.map fun c => item c i).map List.length = cols.map (·.width) := by
  rw [List.map_map]
  apply List.map_congr_left
  intro c hc
  exact item_length (h c hc) hi

theorem mem_rowsOf {cols : List KeyCol} {n : Nat} {r : List (List UInt8)} (h : r ∈ rowsOf cols n) :
    ∃ i, i < n ∧ r = cols.map fun c => item c i := by
  unfold rowsOf at h
  rw [List.mem_map] at h
  obtain ⟨i, hi, rfl⟩ := h
  exact ⟨i, by simpa using hi, rfl⟩

theorem prepared {arg : KeyArg} {n : Nat} (h0 : arg.cols ≠ []) (hc : ∀ c ∈ arg.cols, IsArray n c) (hf : NoFilter arg) :
    ∃ p : Prep, prepare arg = some (some p) ∧ p.rows = n ∧ p.width = (arg.cols.map (·.width)).sum ∧
      p.keys = some ((rowsOf arg.cols n).map List.flatten) := by
  have hthird : thirdOk n arg = true := by
    cases arg with
    | list cs => rfl
    | tuple cs =>
      rw [thirdOk]
      cases e : cs[2]? with
      | none => rfl
      | some c => simp only [Bool.and_eq_true, decide_eq_true_eq]; exact ⟨hf c e, (hc c (List.mem_of_getElem? e)).1⟩
  unfold prepare
  generalize arg.cols = cols at *
  cases cols with
  | nil => exact absurd rfl h0
  | cons c cs =>
    have hcn := (hc c (by simp)).1
    have hall : cs.all (fun d => decide (d.rows = c.rows)) = true := by
      rw [List.all_eq_true]
      intro d hd
      simp only [decide_eq_true_eq]
      rw [hcn, (hc d (by simp [hd])).1]
    dsimp only
    rw [hall, hcn, hthird]
    simp only [Bool.and_self, if_true]
    by_cases hs : cs = []
    · subst hs
      refine ⟨⟨n, c.width, c.data⟩, by simp, rfl, by simp, ?_⟩
      unfold Prep.keys
      rw [mapM_some _ (fun i => item c i) _ (fun i hi => cellAt_item (hc c (by simp)) (by simpa using hi))]
      unfold rowsOf
      rw [List.map_map]
      congr 1
      apply List.map_congr_left
      intro i _
      simp
    · rw [if_neg hs]
      have hrow : ∀ i ∈ List.range n, ((c :: cs).mapM fun d => cellAt d.width d.data i).map List.flatten =
          some (((c :: cs).map fun d => item d i).flatten) := by
        intro i hi
        rw [mapM_some _ (fun d => item d i) _ (fun d hd => cellAt_item (hc d hd) (by simpa using hi))]
        rfl
      have hrot : rotate (c :: cs) n = some ((rowsOf (c :: cs) n).map List.flatten).flatten := by
        unfold rotate
        rw [mapM_some _ _ _ hrow, rowsOf, List.map_map]
        rfl
      refine ⟨⟨n, ((c :: cs).map (·.width)).sum, ((rowsOf (c :: cs) n).map List.flatten).flatten⟩, by rw [hrot]; rfl, rfl, rfl, ?_⟩
      have hw : ∀ x ∈ (rowsOf (c :: cs) n).map List.flatten, x.length = ((c :: cs).map (·.width)).sum := by
        intro x hx
        rw [List.mem_map] at hx
        obtain ⟨r, hr, rfl⟩ := hx
        obtain ⟨i, hi, rfl⟩ := mem_rowsOf hr
        rw [List.length_flatten, row_length hc hi]
      have hlen : ((rowsOf (c :: cs) n).map List.flatten).length = n := by simp [rowsOf]
      unfold Prep.keys
      dsimp only
      rw [mapM_some _ (fun i => ((rowsOf (c :: cs) n).map List.flatten).getD i [])]
      · congr 1
        apply List.ext_getElem?
        intro i
        by_cases hi : i < n
        · rw [List.getElem?_map, List.getElem?_range hi, Option.map_some]
          simp [List.getD]
          rw [List.getElem?_eq_getElem (by simpa [rowsOf] using hi)]
          simp
        · rw [List.getElem?_eq_none (by simp; omega), List.getElem?_eq_none (by omega)]
      · intro i hi
        have hi : i < n := by simpa using hi
        have hi' : i < ((rowsOf (c :: cs) n).map List.flatten).length := by omega
        rw [cellAt, if_pos (by rw [flatten_length hw, hlen]; exact mul_step hi), flatten_cell hw i hi']
        simp only [List.getD, List.getElem?_eq_getElem hi', Option.getD_some]

/-! ## The table -/

theorem rowEq_iff {a b : List UInt8} (h : a.length = b.length) : rowEq a b = true ↔ a = b := by
  rw [rowEq, Bool.not_eq_true', memcmp_iff a b h]

theorem laws_row (H : List UInt8 → Nat) {size : Nat} (hs : 0 < size) (w : Nat) :
    Laws (fun k => k.length = w) (mkHash H size) rowEq size where
  refl := fun a _ => (rowEq_iff rfl).mpr rfl
  symm := fun a b ha hb h => (rowEq_iff (hb.trans ha.symm)).mpr ((rowEq_iff (ha.trans hb.symm)).mp h).symm
  trans := fun a b c ha hb hc h1 h2 => (rowEq_iff (ha.trans hc.symm)).mpr
    (((rowEq_iff (ha.trans hb.symm)).mp h1).trans ((rowEq_iff (hb.trans hc.symm)).mp h2))
  hashEq := fun a b ha hb h => by rw [(rowEq_iff (ha.trans hb.symm)).mp h]
  range := fun a _ => by
    unfold mkHash
    exact Nat.lt_of_le_of_lt Nat.and_le_right (by omega)

theorem wrap_index {n i : Nat} (hn : n ≤ 2 ^ 63) (hi : i < n) : (indexType n).wrap (i : Int) = (i : Int) := (index_fits hn hi).1

/-- Rows of bytes of one length. -/
theorem isMemberMk_exact (t : IT) (H : List UInt8 → Nat) {size : Nat} {a b : List (List UInt8)} {w : Nat} (ha : ∀ x ∈ a, x.length = w)
    (hb : ∀ x ∈ b, x.length = w) (hroom : distinct rowEq b < size) (ht : ∀ i, i < b.length → t.wrap (i : Int) = (i : Int))
    {workers : Nat} {nt : Bool} {par : Option (List Nat)} (hs : ChunkSched workers a.length nt par) :
    ∃ out : List (Bool × Int), isMemberMk t H size a b par = some (.arrays (out.map some)) ∧ out.length = a.length ∧
      ∀ (i : Nat) x r, a[i]? = some x → out[i]? = some r → IsAnswer (fun y => y = x) b t.inv r.1 r.2 := by
  have L := laws_row H (size := size) (by omega) w
  have hf : b.filter (fun _ => true) = b := by simp
  obtain ⟨tb, e, B⟩ := insertAll_spec (ins := fun _ => true) (val := fun i : Nat => t.wrap (i : Int)) L b []
    (fresh _ Int size) (built_fresh _ (fun _ => true) (mkHash H size) rowEq _ size)
    (fun x hx _ => hb x (by simpa using hx)) (by simpa [hf] using hroom)
  let ans : List UInt8 → Bool × Int := fun x =>
    match b.findIdx? (fun y => true && rowEq y x) with
    | some j => (true, (j : Int))
    | none => (false, t.inv)
  have hone : ∀ x ∈ a, memberOne (fun _ => true) (mkHash H size) rowEq t.inv tb x = some (ans x) := by
    intro x hx
    unfold memberOne
    rw [if_pos rfl, built_find L B (by simpa [hf] using hroom) x (ha x hx)]
    simp only [List.nil_append, ans]
    cases hfi : b.findIdx? (fun y => true && rowEq y x) with
    | none => rfl
    | some j =>
      simp only [Option.map_some]
      rw [ht j (List.findIdx?_eq_some_iff_getElem.mp hfi).1]
  refine ⟨a.map ans, ?_, by simp, ?_⟩
  · have e' : insertAll (fun _ => true) (mkHash H size) rowEq (fun i : Nat => t.wrap (i : Int)) 0 b
        (fresh _ Int size) = .ok tb := e
    unfold isMemberMk
    rw [e']
    dsimp only
    have hrow := fun i (hi : i < a.length) => show (a[i]?).bind (memberOne (fun _ => true) (mkHash H size) rowEq t.inv tb) =
        some ((fun i => ans (a.getD i [])) i) by
      rw [List.getElem?_eq_getElem hi, Option.bind_some, hone _ (List.getElem_mem hi)]
      simp [hi]
    have hex := elemWork_exact (n := a.length) (fun i => (a[i]?).bind (memberOne (fun _ => true) (mkHash H size) rowEq t.inv tb))
      (fun i => ans (a.getD i [])) hrow hs
    obtain ⟨ws, hws, _⟩ := elemWork_perm (fun i => (a[i]?).bind (memberOne (fun _ => true) (mkHash H size) rowEq t.inv tb))
      (fun i => ans (a.getD i [])) hrow hs
    rw [hws] at hex ⊢
    rw [Option.bind_some] at hex
    dsimp only
    rw [hex, Option.map_some]
    congr 3
    apply List.ext_getElem?
    intro i
    by_cases hi : i < a.length
    · simp [hi]
    · rw [List.getElem?_eq_none (by simp; omega), List.getElem?_eq_none (by simp; omega)]
  · intro i x r hx hr
    rw [List.getElem?_map, hx] at hr
    simp only [Option.map_some, Option.some.injEq] at hr
    subst hr
    have hxa := ha x (List.mem_of_getElem? hx)
    have hiff : ∀ y ∈ b, (true && rowEq y x) = true ↔ y = x := by
      intro y hy
      rw [Bool.true_and, rowEq_iff ((hb y hy).trans hxa.symm)]
    simp only [ans]
    cases hfi : b.findIdx? (fun y => true && rowEq y x) with
    | none => exact .inr ⟨rfl, rfl, findIdx?_none hiff hfi⟩
    | some j => exact .inl ⟨rfl, j, rfl, findIdx?_firstAt hiff hfi⟩

/-! ## Counting distinct rows -/

theorem distinctFrom_map {K K' : Type} {eq : K → K → Bool} {eq' : K' → K' → Bool} {f : K → K'} :
    ∀ (l seen : List K), (∀ x ∈ seen ++ l, ∀ y ∈ l, eq' (f x) (f y) = eq x y) → distinctFrom eq' (seen.map f) (l.map f) = distinctFrom eq seen l
  | [], _, _ => rfl
  | k :: l, seen, h => by
    have ih := distinctFrom_map (f := f) (eq := eq) (eq' := eq') l (seen ++ [k]) (fun x hx y hy => h x (by simpa using hx) y (by simp [hy]))
    rw [List.map_cons, distinctFrom, distinctFrom, ← ih, List.map_append, List.map_cons, List.map_nil, List.any_map]
    congr 2
    apply propext
    have : (seen.any ((fun x => eq' x (f k)) ∘ f)) = seen.any (fun x => eq x k) := by
      rw [Bool.eq_iff_iff, List.any_eq_true, List.any_eq_true]
      constructor
      · rintro ⟨x, hx, h1⟩; exact ⟨x, hx, by rw [← h x (by simp [hx]) k (by simp)]; exact h1⟩
      · rintro ⟨x, hx, h1⟩; exact ⟨x, hx, by show eq' (f x) (f k) = true; rw [h x (by simp [hx]) k (by simp)]; exact h1⟩
    rw [this]

/-- The number of distinct rows. -/
theorem distinct_rows {n : Nat} {cols : List KeyCol} (hc : ∀ c ∈ cols, IsArray n c) :
    distinct rowEq ((rowsOf cols n).map List.flatten) = distinct (fun x y => decide (x = y)) (rowsOf cols n) := by
  unfold distinct
  have := distinctFrom_map (f := List.flatten) (eq := fun x y => decide (x = y)) (eq' := rowEq) (rowsOf cols n) [] (by
    intro x hx y hy
    obtain ⟨i, hi, rfl⟩ := mem_rowsOf (by simpa using hx)
    obtain ⟨j, hj, rfl⟩ := mem_rowsOf hy
    rw [Bool.eq_iff_iff, rowEq_iff (by rw [List.length_flatten, List.length_flatten, row_length hc hi, row_length hc hj]), decide_eq_true_eq]
    constructor
    · exact flatten_inj (by rw [row_length hc hi, row_length hc hj])
    · intro h; rw [h])
  simpa using this

end Riptide.Hash
