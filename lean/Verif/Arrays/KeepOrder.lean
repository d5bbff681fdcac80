import Verif.Arrays.InfoProps
/-! The copy which keeps the order of the dimensions, for arrays of any shape. -/
namespace Riptide.Nums.Info
open Riptide.Nums Riptide.Binary
open Riptide.Mask.Call.Spec (inC)

/-! ### The order of the dimensions does not matter for which places there are -/

theorem flatMap_perm_right {α β : Type} {f g : α → List β} : ∀ (l : List α), (∀ x ∈ l, (f x).Perm (g x)) → (l.flatMap f).Perm (l.flatMap g)
  | [], _ => .refl _
  | x :: l, h => by
    rw [List.flatMap_cons, List.flatMap_cons]
    exact (h x (by simp)).append (flatMap_perm_right l fun y hy => h y (by simp [hy]))

theorem flatMap_comm {α β γ : Type} (f : α → β → List γ) : ∀ (l : List α) (k : List β),
    (l.flatMap fun x => k.flatMap fun y => f x y).Perm (k.flatMap fun y => l.flatMap fun x => f x y)
  | [], k => by simp [Mask.Call.flatMap_nil_right]
  | x :: l, k => by
    rw [List.flatMap_cons]
    refine (List.Perm.append_left _ (flatMap_comm f l k)).trans ?_
    exact (Mask.Call.flatMap_append_perm (fun y => f x y) (fun y => l.flatMap fun x => f x y) k).symm

/-- Dimensions and distances which are put in another order list the same places. -/
theorem inC_perm {l l' : List (Nat × Int)} (h : l.Perm l') : (inC (l.map (·.1)) (l.map (·.2))).Perm (inC (l'.map (·.1)) (l'.map (·.2))) := by
  induction h with
  | nil => exact .refl _
  | cons x _ ih =>
    simp only [List.map_cons, inC]
    exact flatMap_perm_right _ fun i _ => ih.map _
  | swap x y l =>
    simp only [List.map_cons, inC, List.map_flatMap, List.map_map]
    refine (flatMap_comm _ _ _).trans (flatMap_perm_right _ fun i _ => flatMap_perm_right _ fun j _ => ?_)
    have : ∀ (a b : Int), ((fun o => a + o) ∘ fun o => b + o) = ((fun o => b + o) ∘ fun o => a + o) := by
      intro a b
      funext o
      simp only [Function.comp]
      omega
    rw [this]
  | trans _ _ h1 h2 => exact h1.trans h2

theorem prod_perm {l l' : List Nat} (h : l.Perm l') : prod l = prod l' := by
  induction h with
  | nil => rfl
  | cons x _ ih => simp only [prod, ih]
  | swap x y l => simp only [prod]; rw [← Nat.mul_assoc, ← Nat.mul_assoc, Nat.mul_comm x y]
  | trans _ _ h1 h2 => exact h1.trans h2

/-! ### The dimensions by their distances -/

theorem insertDim_perm (x : Nat × Int) : ∀ l : List (Nat × Int), (insertDim x l).Perm (x :: l)
  | [] => .refl _
  | y :: l => by
    unfold insertDim
    split
    · exact .refl _
    · exact ((insertDim_perm x l).cons y).trans (.swap x y l)

theorem foldl_insert_perm : ∀ (l acc : List (Nat × Int)), (l.foldl (fun l x => insertDim x l) acc).Perm (l ++ acc)
  | [], _ => .refl _
  | x :: l, acc => by
    rw [List.foldl_cons]
    refine (foldl_insert_perm l _).trans ?_
    refine (List.Perm.append_left l (insertDim_perm x acc)).trans ?_
    rw [List.cons_append]
    exact List.perm_middle

theorem sortedDims_perm (ss : List Int) : (sortedDims ss).Perm (List.range ss.length) := by
  unfold sortedDims
  refine ((foldl_insert_perm _ []).map _).trans ?_
  rw [List.append_nil, List.map_map]
  have : (ss.zipIdx.map (Prod.fst ∘ fun (p : Int × Nat) => (p.2, p.1))) = List.range ss.length := by
    apply List.ext_getElem (by simp)
    intro i h1 h2
    simp
  exact this ▸ .refl _

/-! ### The places of the copy -/

/-- The distances of an array in C order. -/
theorem strides_behind (item : Nat) (f : Nat → Nat) : ∀ (pre post : List Nat), (pre ++ post).Nodup →
    (post.map fun k => ((prod (((pre ++ post).drop ((pre ++ post).idxOf k + 1)).map f) * item : Nat) : Int)) = cStrides item (post.map f)
  | _, [], _ => rfl
  | pre, k :: post, h => by
    have h1 := strides_behind item f (pre ++ [k]) post (by simpa using h)
    rw [List.append_assoc, List.singleton_append] at h1
    rw [List.map_cons, List.map_cons, cStrides, h1]
    have hk : k ∉ pre := by
      intro hk
      rw [List.nodup_append] at h
      exact h.2.2 k hk k (by simp) rfl
    have hi : (pre ++ k :: post).idxOf k = pre.length := by
      rw [List.idxOf_append, if_neg hk]
      simp
    rw [hi]
    congr 3
    rw [List.drop_append, List.drop_eq_nil_of_le (by omega)]
    simp

theorem sameStrides_self : ∀ (dims : List Nat) (item : Nat), sameStrides dims (cStrides item dims) (cStrides item dims) = true
  | [], _ => rfl
  | d :: ds, item => by
    rw [cStrides, sameStrides, sameStrides_self ds item]
    simp

theorem cStrides_length : ∀ (dims : List Nat) (item : Nat), (cStrides item dims).length = dims.length
  | [], _ => rfl
  | d :: ds, item => by rw [cStrides, List.length_cons, cStrides_length ds, List.length_cons]

/-- The places of an array in C order. -/
theorem inC_packed (dims : List Nat) (item : Nat) : inC dims (cStrides item dims) = (List.range (prod dims)).map fun (k : Nat) => (k : Int) * item := by
  have hw : (Lay.mk dims (cStrides item dims) item).strides.length = (Lay.mk dims (cStrides item dims) item).dims.length := cStrides_length dims item
  have hc : (Lay.mk dims (cStrides item dims) item).cContig = true := by
    unfold Lay.cContig
    simp [sameStrides_self]
  exact Mask.Call.even_eq (Mask.Call.contiguous_even_c hw hc) (Mask.Call.inC_length _ _ hw)

theorem dims_pairs (dims : List Nat) (g : Nat → Int) : ((List.range dims.length).map fun k => (dims.getD k 1, g k)).map (·.1) = dims := by
  rw [List.map_map]
  apply List.ext_getElem (by simp)
  intro i h1 h2
  simp [List.getD, h2]

/-- The items of the copy are packed, whatever the array was. -/
theorem keepLay_places (l : Lay) (hw : l.strides.length = l.dims.length) :
    (inC l.dims (keepLay l).strides).Perm ((List.range l.len).map fun (k : Nat) => (k : Int) * l.item) := by
  have ho := sortedDims_perm l.strides
  rw [hw] at ho
  have hp := inC_perm (ho.map fun k => (l.dims.getD k 1, keepStride l.item l.dims (sortedDims l.strides) k))
  rw [dims_pairs, List.map_map, List.map_map, List.map_map] at hp
  have hn : (sortedDims l.strides).Nodup := ho.nodup_iff.2 List.nodup_range
  have hs := strides_behind l.item (fun j => l.dims.getD j 1) [] (sortedDims l.strides) hn
  have hd : prod ((sortedDims l.strides).map fun k => l.dims.getD k 1) = l.len := by
    rw [prod_perm (ho.map _)]
    have := dims_pairs l.dims fun _ => 0
    rw [List.map_map] at this
    exact congrArg prod this
  have h1 : inC ((sortedDims l.strides).map fun k => l.dims.getD k 1)
      ((sortedDims l.strides).map (keepStride l.item l.dims (sortedDims l.strides))) = (List.range l.len).map fun (k : Nat) => (k : Int) * l.item := by
    rw [← hd, ← inC_packed, ← hs]
    rfl
  have h2 := hp.symm
  refine h2.trans ?_
  rw [← h1]
  exact .refl _

theorem keepLay_strides (l : Lay) : (keepLay l).strides.length = l.dims.length := by simp [keepLay]

theorem prod_drop_le : ∀ (l : List Nat) (n : Nat), prod l ≠ 0 → prod (l.drop n) ≤ prod l
  | [], n, _ => by simp
  | _ :: _, 0, _ => Nat.le_refl _
  | d :: l, n + 1, h => by
    rw [prod] at h ⊢
    have hl : prod l ≠ 0 := fun e => h (by rw [e, Nat.mul_zero])
    have hd : 0 < d := Nat.pos_of_ne_zero fun e => h (by rw [e, Nat.zero_mul])
    rw [List.drop_succ_cons]
    exact Nat.le_trans (prod_drop_le l n hl) (Nat.le_mul_of_pos_left _ hd)

/-- The distances of a copy with items have room where its size has. -/
theorem keepStride_le (l : Lay) (hw : l.strides.length = l.dims.length) (h : l.len ≠ 0) :
    ∀ s ∈ (keepLay l).strides, 0 ≤ s ∧ s ≤ ((l.len * l.item : Nat) : Int) := by
  intro s hs
  simp only [keepLay, List.mem_map] at hs
  obtain ⟨k, _, rfl⟩ := hs
  unfold keepStride
  have ho := sortedDims_perm l.strides
  rw [hw] at ho
  have hd : prod ((sortedDims l.strides).map fun k => l.dims.getD k 1) = l.len := by
    rw [prod_perm (ho.map _)]
    have := dims_pairs l.dims fun _ => 0
    rw [List.map_map] at this
    exact congrArg prod this
  have h1 := prod_drop_le ((sortedDims l.strides).map fun k => l.dims.getD k 1) ((sortedDims l.strides).idxOf k + 1) (by rw [hd]; exact h)
  rw [hd, ← List.map_drop] at h1
  have h2 := Nat.mul_le_mul_right l.item h1
  omega

/-! ### The bytes of the copy -/

/-- A byte of the copy is that of the array, if the items of the copy are at different multiples of their size. -/
theorem copyMem_at {item : Nat} {ps qs : List Int} (m : Mem) (hn : ps.Nodup) (hm : ∀ p ∈ ps, ∃ k : Int, p = k * item) {p q : Int} (h : (p, q) ∈ ps.zip qs)
    {j : Nat} (hj : j < item) : copyMem item (ps.zip qs) m (p + j) = m (q + j) := by
  unfold copyMem
  cases hf : (ps.zip qs).find? fun x => decide (x.1 ≤ p + j ∧ p + j < x.1 + item) with
  | none =>
    rw [List.find?_eq_none] at hf
    have := hf (p, q) h
    simp only [decide_eq_true_eq] at this
    omega
  | some x =>
    have hx := List.mem_of_find?_eq_some hf
    have hb := List.find?_some hf
    simp only [decide_eq_true_eq] at hb
    obtain ⟨k1, e1⟩ := hm _ (List.of_mem_zip h).1
    obtain ⟨k2, e2⟩ := hm _ (List.of_mem_zip hx).1
    have hk : k1 = k2 := by
      rcases Int.lt_trichotomy k1 k2 with hlt | he | hgt
      · have : (k1 + 1) * (item : Int) ≤ k2 * item := Int.mul_le_mul_of_nonneg_right (by omega) (by omega)
        rw [Int.add_mul, Int.one_mul] at this
        omega
      · exact he
      · have : (k2 + 1) * (item : Int) ≤ k1 * item := Int.mul_le_mul_of_nonneg_right (by omega) (by omega)
        rw [Int.add_mul, Int.one_mul] at this
        omega
    have hp : x.1 = p := by rw [e1, e2, hk]
    have hq : x.2 = q := by
      obtain ⟨i, hi, ei⟩ := List.mem_iff_getElem.1 h
      obtain ⟨i', hi', ei'⟩ := List.mem_iff_getElem.1 hx
      rw [List.length_zip] at hi hi'
      rw [List.getElem_zip] at ei ei'
      have : i = i' := by
        have h1 : ps[i]'(by omega) = ps[i']'(by omega) := by
          rw [← ei'] at hp
          simp only [Prod.mk.injEq] at ei
          rw [ei.1]; exact hp.symm
        rcases Nat.lt_trichotomy i i' with hlt | he | hgt
        · exact absurd h1 (List.pairwise_iff_getElem.1 hn i i' (by omega) (by omega) hlt)
        · exact he
        · exact absurd h1.symm (List.pairwise_iff_getElem.1 hn i' i (by omega) (by omega) hgt)
      subst this
      rw [← ei']
      exact congrArg Prod.snd ei
    simp only [hp, hq]
    congr 1
    omega

theorem places_nodup {l : Lay} (hw : l.strides.length = l.dims.length) (hi : 0 < l.item) : (inC l.dims (keepLay l).strides).Nodup := by
  rw [(keepLay_places l hw).nodup_iff, List.Nodup, List.pairwise_map]
  refine List.Pairwise.imp (fun hab e => hab ?_) List.nodup_range
  have : ((_ : Nat) : Int) = ((_ : Nat) : Int) := Int.eq_of_mul_eq_mul_right (by omega) e
  omega

/-- The places of the copy beside those of the array: every byte of the copy is that of the array. -/
theorem copyOf_get (a : Arr) (m : Mem) (hw : a.lay.strides.length = a.lay.dims.length) {p q : Int}
    (h : (p, q) ∈ (inC a.lay.dims (keepLay a.lay).strides).zip (inC a.lay.dims a.lay.strides)) {j : Nat} (hj : j < a.lay.item) :
    (copyOf a m).2 (p + j) = m (q + j) := by
  unfold copyOf
  refine copyMem_at m (places_nodup hw (by omega)) ?_ h hj
  intro p hp
  have := (keepLay_places a.lay hw).mem_iff.1 hp
  rw [List.mem_map] at this
  obtain ⟨k, _, rfl⟩ := this
  exact ⟨k, rfl⟩

/-- A cube of which every other item is left out, with its dimensions in another order: the copy has all its items packed. -/
example : inC [2, 3, 2] (keepLay ⟨[2, 3, 2], [2, 8, 4], 1⟩).strides = [0, 2, 4, 6, 8, 10, 1, 3, 5, 7, 9, 11] := by decide +kernel

end Riptide.Nums.Info
