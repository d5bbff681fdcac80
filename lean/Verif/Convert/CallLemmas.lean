import Verif.Convert.CallSpec
import Verif.Unary.TwoDimProps
/-! Lemmas on the walks of the conversions. -/
namespace Riptide.Convert.Call
open Riptide.Work Riptide.Binary Riptide.Unary Riptide.GroupBy.Entry

theorem cPos_inj : ∀ (dims i j : List Nat), InBounds i dims → InBounds j dims → cPos i dims = cPos j dims → i = j
  | [], [], [], _, _, _ => rfl
  | [], _ :: _, _, h, _, _ => h.elim
  | [], [], _ :: _, _, h, _ => h.elim
  | _ :: _, [], _, h, _, _ => h.elim
  | _ :: _, _ :: _, [], _, h, _ => h.elim
  | d :: ds, x :: xs, y :: ys, h1, h2, h => by
    have l1 := cPos_lt _ _ h1.2
    have l2 := cPos_lt _ _ h2.2
    simp only [cPos] at h
    have hp : 0 < prod ds := by omega
    have e1 : (x * prod ds + cPos xs ds) / prod ds = x := by
      rw [Nat.mul_comm, Nat.mul_add_div hp, Nat.div_eq_of_lt l1]; rfl
    have e2 : (y * prod ds + cPos ys ds) / prod ds = y := by
      rw [Nat.mul_comm, Nat.mul_add_div hp, Nat.div_eq_of_lt l2]; rfl
    have e : x = y := by rw [← e1, h, e2]
    subst e
    rw [cPos_inj ds xs ys h1.2 h2.2 (by omega)]

theorem fPos_inj : ∀ (dims i j : List Nat), InBounds i dims → InBounds j dims → fPos i dims = fPos j dims → i = j
  | [], [], [], _, _, _ => rfl
  | [], _ :: _, _, h, _, _ => h.elim
  | [], [], _ :: _, _, h, _ => h.elim
  | _ :: _, [], _, h, _, _ => h.elim
  | _ :: _, _ :: _, [], _, h, _ => h.elim
  | d :: ds, x :: xs, y :: ys, h1, h2, h => by
    have l1 : x < d := h1.1
    have l2 : y < d := h2.1
    simp only [fPos] at h
    have e1 : (x + d * fPos xs ds) % d = x := by rw [Nat.add_mul_mod_self_left, Nat.mod_eq_of_lt l1]
    have e2 : (y + d * fPos ys ds) % d = y := by rw [Nat.add_mul_mod_self_left, Nat.mod_eq_of_lt l2]
    have e : x = y := by rw [← e1, h, e2]
    subst e
    have h3 : d * fPos xs ds = d * fPos ys ds := by omega
    rw [fPos_inj ds xs ys h1.2 h2.2 (Nat.eq_of_mul_eq_mul_left (by omega) h3)]

/-- The blocks of the threads are the items of one straight walk, in some order. -/
theorem threaded_perm {len : Nat} (si so : Int) {workers : Nat} {nt : Bool} {par : Option (List Nat)} (h : ChunkSched workers len nt par) :
    (threaded len si so par).Perm (straight len si so) := by
  obtain ⟨ws, h1, h2⟩ := elemWork_perm (fun (k : Nat) => some ((k : Int) * si, (k : Int) * so)) (fun (k : Nat) => ((k : Int) * si, (k : Int) * so))
    (fun _ _ => rfl) h
  unfold threaded
  rw [h1]
  refine (h2.map Prod.snd).trans ?_
  simp only [List.map_map, straight]
  exact List.Perm.refl _

/-- The walk of the conversion is the one of the operations on one array, up to the order of the items. -/
theorem safeWalk_plan (a out : Lay) {workers : Nat} {nt : Bool} {par : Option (List Nat)} (h : ChunkSched workers a.len nt par) :
    (plan a out = none ∧ safeWalk a out par = none) ∨
    ∃ l l', plan a out = some l ∧ safeWalk a out par = some l' ∧ l'.Perm l := by
  rw [plan_eq]
  unfold safeWalk
  by_cases h1 : (contig a).1 = 0 ∧ (contig out).1 = 0
  · rw [if_pos h1, if_pos h1]
    exact .inr ⟨_, _, rfl, rfl, threaded_perm _ _ h⟩
  rw [if_neg h1, if_neg h1]
  by_cases h2 : (contig a).1 = 1 ∧ (contig out).1 = 0
  · rw [if_pos h2]
    exact .inr ⟨_, _, rfl, rfl, .refl _⟩
  rw [if_neg h2]
  by_cases h3 : (contig a).1 = -1 ∧ (contig out).1 = 0
  · rw [if_pos h3]
    exact .inr ⟨_, _, rfl, rfl, .refl _⟩
  rw [if_neg h3]
  exact .inl ⟨rfl, rfl⟩

/-- A walk which pairs every index with itself and is written to an output whose items are numbered by `pos`. -/
theorem runWalk_exact {conv mem : Int → Option Int} {n item : Nat} (hi : 0 < item) {a out : Lay} {l l' : List (Int × Int)} (hp : l'.Perm l)
    (hf : Faithful a out l) (pos : List Nat → Nat) (ho : ∀ idx, InBounds idx a.dims → offs idx out.strides = (pos idx : Int) * item)
    (hlt : ∀ idx, InBounds idx a.dims → pos idx < n)
    (hinj : ∀ i j, InBounds i a.dims → InBounds j a.dims → pos i = pos j → i = j)
    (hv : ∀ idx, InBounds idx a.dims → ∃ y, (mem (offs idx a.strides)).bind conv = some y) :
    ∃ items, runWalk conv mem n item l' = some items ∧ items.length = n ∧
      ∀ idx, InBounds idx a.dims → items[pos idx]? = some ((mem (offs idx a.strides)).bind conv) := by
  classical
  let val : Int → Int := fun x => ((mem x).bind conv).getD 0
  have hstep : ∀ p ∈ l', stepItem conv mem item p = some ((p.2 / item).toNat, val p.1) := by
    intro p hpl
    obtain ⟨idx, hb, rfl⟩ := hf.2 p (hp.mem_iff.mp hpl)
    obtain ⟨y, hy⟩ := hv idx hb
    have e : val (offs idx a.strides) = y := by show ((mem _).bind conv).getD 0 = y; rw [hy]; rfl
    simp only [stepItem]
    cases hm : mem (offs idx a.strides) with
    | none => rw [hm] at hy; cases hy
    | some x =>
      rw [hm] at hy
      simp only [Option.bind_some] at hy
      simp only [ho idx hb, hy, e]
      have h1 : (0 : Int) ≤ (pos idx : Int) * item := Int.mul_nonneg (by omega) (by omega)
      simp [h1]
  let f : Nat → Int := fun s => if h : ∃ idx, InBounds idx a.dims ∧ pos idx = s then val (offs h.choose a.strides) else 0
  have hslot : ∀ idx, InBounds idx a.dims → (offs idx out.strides / (item : Int)).toNat = pos idx := by
    intro idx hb
    rw [ho idx hb, Int.mul_ediv_cancel _ (by omega)]; rfl
  have hfv : ∀ idx, InBounds idx a.dims → f (pos idx) = val (offs idx a.strides) := by
    intro idx hb
    have hex : ∃ j, InBounds j a.dims ∧ pos j = pos idx := ⟨idx, hb, rfl⟩
    show (if h : _ then _ else _) = _
    rw [dif_pos hex]
    rw [hinj _ _ hex.choose_spec.1 hb hex.choose_spec.2]
  have hmap := mapM_some (stepItem conv mem item) (fun p => ((p.2 / (item : Int)).toNat, val p.1)) l' hstep
  have hall : ∀ w ∈ l'.map (fun p => ((p.2 / (item : Int)).toNat, val p.1)), ∃ idx, InBounds idx a.dims ∧ w = (pos idx, val (offs idx a.strides)) := by
    intro w hw
    obtain ⟨p, hpl, rfl⟩ := List.mem_map.1 hw
    obtain ⟨idx, hb, rfl⟩ := hf.2 p (hp.mem_iff.mp hpl)
    exact ⟨idx, hb, by simp only [hslot idx hb]⟩
  have hrun := runWrites_eq f (n := n) (ws := l'.map (fun p => ((p.2 / (item : Int)).toNat, val p.1)))
    (fun w hw => by obtain ⟨idx, hb, rfl⟩ := hall w hw; exact hlt idx hb)
    (fun w hw => by obtain ⟨idx, hb, rfl⟩ := hall w hw; exact (hfv idx hb).symm)
  have hr : runWalk conv mem n item l' = runWrites n (l'.map (fun p => ((p.2 / (item : Int)).toNat, val p.1))) := by
    unfold runWalk
    rw [hmap, Option.bind_some]
  refine ⟨_, hr.trans hrun, ?_, ?_⟩
  · simp
  · intro idx hb
    have hin : pos idx ∈ (l'.map (fun p => ((p.2 / (item : Int)).toNat, val p.1))).map Prod.fst := by
      rw [List.map_map]
      refine List.mem_map.2 ⟨_, hp.mem_iff.mpr (hf.1 idx hb), ?_⟩
      exact hslot idx hb
    have := hlt idx hb
    simp only [List.getElem?_map, List.getElem?_range this, Option.map_some, hin, if_true, hfv idx hb]
    obtain ⟨y, hy⟩ := hv idx hb
    show some (some (((mem _).bind conv).getD 0)) = _
    rw [hy]; rfl

/-- The direction and the stride of a new array: it is contiguous. -/
theorem contig_allocate (dims : List Nat) {item : Nat} (f : Bool) (hl : prod dims ≠ 0) (hi : 0 < item) :
    (contig (allocate dims item f)).1 = 0 := by
  cases f with
  | false =>
    have hd : (allocate dims item false).dims = dims := rfl
    have hit : (allocate dims item false).item = item := rfl
    have hs : ∀ k, k < dims.length → str (allocate dims item false) k = (item : Int) * (prod (dims.drop (k + 1)) : Int) := by
      intro k hk
      have := cStrides_get item dims k hk
      show (cStrides item dims).getD k 0 = _
      rw [this]; push_cast; rw [Int.mul_comm]
    generalize allocate dims item false = o at hd hit hs
    have hback : ∀ (k : Nat) (cur : Int), k < dims.length → cur = (item : Int) * (prod (dims.drop (k + 1)) : Int) → backChain o k cur = 0 := by
      intro k
      induction k with
      | zero => intro cur _ _; rfl
      | succ k ih =>
        intro cur hk hc
        have e : str o k = cur * dim o (k + 1) := by
          rw [hs k (by omega), hc, List.drop_eq_getElem_cons (show k + 1 < dims.length by omega), prod]
          have : dim o (k + 1) = dims[k + 1] := by unfold dim; rw [hd]; simp [List.getD, hk]
          rw [this]; push_cast
          rw [Int.mul_assoc, Int.mul_comm (dims[k + 1] : Int)]
        rw [backChain, if_neg (by simp [e])]
        refine ih _ (by omega) ?_
        rw [← e, hs k (by omega)]
    have hlast : dims ≠ [] → lastStride o = item := by
      intro hne
      unfold lastStride
      rw [hd, hit]
      split
      · have h0 : 0 < dims.length := by cases dims <;> simp at hne ⊢
        rw [hs _ (by omega), List.drop_eq_nil_of_le (by omega)]; simp [prod]
      · rfl
    unfold contig
    rw [hd]
    split
    · rfl
    · split
      · rfl
      · rename_i hn hne
        have hnil : dims ≠ [] := by rintro rfl; simp at hn
        split
        · show ((backChain o (dims.length - 1) (lastStride o) : Nat) : Int) = 0
          rw [hback _ _ (by omega)]
          · rfl
          · rw [hlast hnil, List.drop_eq_nil_of_le (by omega)]; simp [prod]
        · rename_i hlt
          exfalso
          rw [hlast hnil] at hne hlt
          unfold headStride at hne hlt
          rw [hit, hd] at hne hlt
          have hp := prod_drop_pos hl 1
          have e := hs 0 (by omega)
          simp only [Nat.zero_add] at e
          split at hne
          · rename_i hc
            rw [if_pos hc] at hlt
            rw [e] at hne hlt
            have : (item : Int) * 1 ≤ (item : Int) * (prod (dims.drop 1) : Int) := Int.mul_le_mul_of_nonneg_left (by omega) (by omega)
            omega
          · exact hne rfl
  | true =>
    have hd : (allocate dims item true).dims = dims := rfl
    have hit : (allocate dims item true).item = item := rfl
    have hs : ∀ k, k < dims.length → str (allocate dims item true) k = (item : Int) * (prod (dims.take k) : Int) := by
      intro k hk
      have := fStrides_get item dims k hk
      show (fStrides item dims).getD k 0 = _
      rw [this]; push_cast; rfl
    generalize allocate dims item true = o at hd hit hs
    have hfwd : ∀ (r : Nat) (cur : Int), r < dims.length → cur = (item : Int) * (prod (dims.take (dims.length - 1 - r)) : Int) → fwdChain o r cur = 0 := by
      intro r
      induction r with
      | zero => intro cur _ _; rfl
      | succ r ih =>
        intro cur hr hc
        have hk : dims.length - 1 - (r + 1) < dims.length := by omega
        have hk1 : dims.length - 1 - (r + 1) + 1 = dims.length - 1 - r := by omega
        have e : str o (dims.length - 1 - (r + 1) + 1) = cur * dim o (dims.length - 1 - (r + 1)) := by
          rw [hs _ (by omega), hc, List.take_add_one, prod_append]
          have : dim o (dims.length - 1 - (r + 1)) = dims[dims.length - 1 - (r + 1)] := by unfold dim; rw [hd]; simp [List.getD, hk]
          rw [this, List.getElem?_eq_getElem hk]
          simp only [Option.toList_some, prod, Nat.mul_one]
          push_cast
          rw [Int.mul_assoc]
        rw [fwdChain, hd]
        rw [if_neg (by simp [e])]
        refine ih _ (by omega) ?_
        rw [← e, hs _ (by omega), hk1]
    unfold contig
    rw [hd]
    split
    · rfl
    · split
      · rfl
      · rename_i hn hne
        have hhead : headStride o = item := by
          unfold headStride
          rw [hd, hit]
          split
          · rw [hs 0 (by omega)]; simp [prod]
          · rfl
        split
        · rename_i hlt
          exfalso
          rw [hhead] at hne hlt
          unfold lastStride at hne hlt
          rw [hit, hd] at hne hlt
          have hp := prod_take_pos hl (dims.length - 1)
          have e := hs (dims.length - 1) (by omega)
          split at hne
          · rename_i hc
            rw [if_pos hc] at hlt
            rw [e] at hne hlt
            have : (item : Int) * 1 ≤ (item : Int) * (prod (dims.take (dims.length - 1)) : Int) := Int.mul_le_mul_of_nonneg_left (by omega) (by omega)
            omega
          · exact hne rfl
        · show -((fwdChain o (dims.length - 1) (headStride o) : Nat) : Int) = 0
          rw [hfwd _ _ (by omega)]
          · rfl
          · rw [hhead]; simp [prod]

end Riptide.Convert.Call
