import Verif.Stack.TypesLemmas
/-! # C113: the type of a stacked column can hold all items of all files

Numbers keep their values, strings their characters, whatever the order of the files. -/
namespace Riptide.Stack

/-! ### Numbers -/

/-- The type for all files with numbers. -/
def joinAll : List Nat → Option Nat
  | [] => none
  | t :: l => some (l.foldl join t)

theorem block_type_congr {m k : Block} (h1 : k.dtype = m.dtype) (h2 : k.item = m.item) : k.type = m.type := by
  unfold Block.type; rw [h1, h2]

theorem addColumn_num {m o : Block} {tail : List Nat} {n : Nat} (hm : Num m) (ho : Num o) (hs : SameShape [m, o] tail n) :
    ∃ k, addColumn (some m) o = some k ∧ k.type = join m.type o.type ∧ Num k ∧ k.dims = m.dims ∧
      (m.c = true ∧ o.c = true → k.c = true) ∧ (m.f = true ∧ o.f = true → k.f = true) := by
  obtain ⟨t1, t2, t3, t4, t5, t6⟩ := compatType_num hm ho
  have hs' : SameShape [(compatType true m o).1, o] tail n := by
    refine ⟨?_, ?_, ?_⟩
    · intro b hb
      rcases List.mem_cons.mp hb with rfl | hb
      · rw [t4]; exact hs.len m (by simp)
      · exact hs.len b (by simp at hb; simp [hb])
    · intro b hb
      rcases List.mem_cons.mp hb with rfl | hb
      · rw [t4]; exact hs.tail m (by simp)
      · exact hs.tail b (by simp at hb; simp [hb])
    · refine hs.order.imp ?_ ?_
      · intro h b hb
        rcases List.mem_cons.mp hb with rfl | hb
        · rw [t5]; exact h m (by simp)
        · exact h b (by simp at hb; simp [hb])
      · intro h b hb
        rcases List.mem_cons.mp hb with rfl | hb
        · rw [t6]; exact h m (by simp)
        · exact h b (by simp at hb; simp [hb])
  obtain ⟨s1, s2, s3, s4, s5, s6⟩ := compatShape_ok hs'
  refine ⟨(compatShape true (compatType true m o).1 o).1, ?_, ?_, ?_, ?_, ?_, ?_⟩
  · have hc : o.c = true ∨ o.f = true := hs.order.imp (fun h => h o (by simp)) (fun h => h o (by simp))
    have h1 : (compatShape true (compatType true m o).1 o).2.1 = true := by rw [s1]
    have h2 : (compatShape true (compatType true m o).1 o).2.2 = false := by rw [s1]
    unfold addColumn compat
    dsimp only
    rw [if_neg (fun h => h hc), t3, h1, h2]
    rfl
  · rw [block_type_congr s3 s4, t1]
  · have := block_type_congr s3 s4
    exact ⟨by rw [this]; exact t2.type, by rw [this, s4]; exact t2.item⟩
  · rw [s2, t4]
  · intro h; exact s5 ⟨by rw [t5]; exact h.1, h.2⟩
  · intro h; exact s6 ⟨by rw [t6]; exact h.1, h.2⟩

theorem fold_num {tail : List Nat} {n : Nat} : ∀ (l : List Block) (m : Block), (∀ b ∈ m :: l, Num b) → SameShape (m :: l) tail n →
    ∃ k, l.foldl addColumn (some m) = some k ∧ k.type = (l.map Block.type).foldl join m.type ∧ Num k ∧ k.dims = m.dims ∧
      ((∀ b ∈ m :: l, b.c = true) → k.c = true) ∧ ((∀ b ∈ m :: l, b.f = true) → k.f = true)
  | [], m, hn, hs => ⟨m, rfl, rfl, hn m (by simp), rfl, fun h => h m (by simp), fun h => h m (by simp)⟩
  | o :: l, m, hn, hs => by
    obtain ⟨k, k1, k2, k3, k4, k5, k6⟩ := addColumn_num (hn m (by simp)) (hn o (by simp))
      (hs.sub (l' := [m, o]) (by intro b hb; simp at hb; rcases hb with rfl | rfl <;> simp))
    have hs' : SameShape (k :: l) tail n := by
      refine ⟨?_, ?_, ?_⟩
      · intro b hb
        rcases List.mem_cons.mp hb with rfl | hb
        · rw [k4]; exact hs.len m (by simp)
        · exact hs.len b (by simp [hb])
      · intro b hb
        rcases List.mem_cons.mp hb with rfl | hb
        · rw [k4]; exact hs.tail m (by simp)
        · exact hs.tail b (by simp [hb])
      · refine hs.order.imp ?_ ?_
        · intro h b hb
          rcases List.mem_cons.mp hb with rfl | hb
          · exact k5 ⟨h m (by simp), h o (by simp)⟩
          · exact h b (by simp [hb])
        · intro h b hb
          rcases List.mem_cons.mp hb with rfl | hb
          · exact k6 ⟨h m (by simp), h o (by simp)⟩
          · exact h b (by simp [hb])
    have hn' : ∀ b ∈ k :: l, Num b := by
      intro b hb
      rcases List.mem_cons.mp hb with rfl | hb
      · exact k3
      · exact hn b (by simp [hb])
    obtain ⟨r, r1, r2, r3, r4, r5, r6⟩ := fold_num l k hn' hs'
    refine ⟨r, ?_, ?_, r3, r4.trans k4, ?_, ?_⟩
    · rw [List.foldl_cons, k1]; exact r1
    · rw [List.map_cons, List.foldl_cons, ← k2]; exact r2
    · intro h
      apply r5
      intro b hb
      rcases List.mem_cons.mp hb with rfl | hb
      · exact k5 ⟨h m (by simp), h o (by simp)⟩
      · exact h b (by simp [hb])
    · intro h
      apply r6
      intro b hb
      rcases List.mem_cons.mp hb with rfl | hb
      · exact k6 ⟨h m (by simp), h o (by simp)⟩
      · exact h b (by simp [hb])

theorem compat_false_num {m o : Block} (hm : Num m) : (compat false m o).1 = m := by
  unfold compat
  dsimp only
  rw [compatShape_false]
  have hd := num_dtype hm
  have h1 := num_lt _ hm.type
  unfold compatType
  dsimp only
  split
  · split
    · split
      · rw [if_neg (by simp)]
      · rw [if_neg (by omega)]
    · split
      · rw [if_neg (by simp)]
      · split
        · rw [if_neg (by simp)]
        · rfl
  · rfl

theorem settle_num (l : List Block) {m : Block} (hm : Num m) : settle m l = m := by
  unfold settle
  induction l with
  | nil => rfl
  | cons o l ih => rw [List.foldl_cons, compat_false_num hm]; exact ih

/-- Files with numbers can be stacked if their shapes can, and the type of the column is that of `joinAll`. -/
theorem king_num {l : List Block} {tail : List Nat} {n : Nat} (hl : l ≠ []) (hn : ∀ b ∈ l, Num b) (hs : SameShape l tail n) :
    ∃ k, king l = some k ∧ joinAll (l.map Block.type) = some k.type ∧ Num k ∧ k.dims.length = n ∧ k.dims.drop 1 = tail := by
  cases l with
  | nil => exact absurd rfl hl
  | cons m l =>
    obtain ⟨k, k1, k2, k3, k4, _, _⟩ := fold_num l m hn hs
    refine ⟨k, ?_, ?_, k3, by rw [k4]; exact hs.len m (by simp), by rw [k4]; exact hs.tail m (by simp)⟩
    · have hc : m.c = true ∨ m.f = true := hs.order.imp (fun h => h m (by simp)) (fun h => h m (by simp))
      unfold king
      show ((if m.c = true ∨ m.f = true then l.foldl addColumn (some m) else none).map (settle · (m :: l))) = _
      rw [if_pos hc, k1]
      show some (settle k (m :: l)) = some k
      rw [settle_num _ k3]
    · rw [k2]; rfl

/-- How a type stands to a type it is converted to: not larger, and `bool` only to hold `bool`. -/
def below (t k : Nat) : Bool :=
  decide (size t ≤ size k) && (k != 0 || t == 0) &&
    (t == k || canConvert t k)

theorem below_refl : ∀ t ∈ numTypes, below t t = true := by decide
theorem below_join : ∀ k ∈ numTypes, ∀ o ∈ numTypes, below o (join k o) = true ∧ ∀ t ∈ numTypes, below t k = true → below t (join k o) = true := by
  decide +kernel

/-- The pairs of types for which numbers can change. -/
def lossy (t k : Nat) : Bool := (t == 10 && k == 9) || (t == 9 && k == 10) || ((t == 9 || t == 10) && k == 12)

/-- The pairs of types for which they do not. -/
def inside (t k : Nat) : Bool :=
  t == k || (t == 0 && k != 0) || ((t == 1) && [3, 5, 9, 11, 12, 13].contains k) || ((t == 2) && [3, 4, 5, 6, 9, 10, 11, 12, 13].contains k) ||
    ((t == 3) && [5, 9, 11, 12, 13].contains k) || ((t == 4) && [5, 6, 9, 10, 11, 12, 13].contains k) ||
    ((t == 5) && [9, 12, 13].contains k) || ((t == 6) && [9, 10, 12, 13].contains k) || ((t == 9 || t == 10) && k == 13) ||
    ((t == 11) && [12, 13].contains k) || ((t == 12) && k == 13)

theorem inside_join : ∀ k ∈ numTypes, ∀ o ∈ numTypes, (inside o (join k o) || lossy o (join k o)) = true ∧
    ∀ t ∈ numTypes, (inside t k || lossy t k) = true → (inside t (join k o) || lossy t (join k o)) = true := by
  decide +kernel
theorem inside_refl : ∀ t ∈ numTypes, inside t t = true := by decide

theorem fold_below : ∀ (l : List Nat) (k : Nat) (R : Nat → Nat → Bool), (∀ t ∈ l, t ∈ numTypes) → k ∈ numTypes →
    (∀ k ∈ numTypes, ∀ o ∈ numTypes, R o (join k o) = true ∧ ∀ t ∈ numTypes, R t k = true → R t (join k o) = true) →
    l.foldl join k ∈ numTypes ∧ (∀ t ∈ l, R t (l.foldl join k) = true) ∧ (∀ t ∈ numTypes, R t k = true → R t (l.foldl join k) = true)
  | [], k, R, _, hk, _ => ⟨hk, by simp, fun t _ h => h⟩
  | o :: l, k, R, hl, hk, hR => by
    have ho : o ∈ numTypes := hl o (by simp)
    obtain ⟨h1, h2, h3⟩ := fold_below l (join k o) R (fun t ht => hl t (by simp [ht])) (join_mem k hk o ho) hR
    refine ⟨h1, ?_, ?_⟩
    · intro t ht
      rcases List.mem_cons.mp ht with rfl | ht
      · exact h3 t ho (hR k hk t ho).1
      · exact h2 t ht
    · intro t ht h
      exact h3 t ht ((hR k hk o ho).2 t ht h)

theorem joinAll_rel {l : List Nat} {k : Nat} (hl : ∀ t ∈ l, t ∈ numTypes) (h : joinAll l = some k) (R : Nat → Nat → Bool)
    (hr : ∀ t ∈ numTypes, R t t = true)
    (hR : ∀ k ∈ numTypes, ∀ o ∈ numTypes, R o (join k o) = true ∧ ∀ t ∈ numTypes, R t k = true → R t (join k o) = true) :
    k ∈ numTypes ∧ ∀ t ∈ l, R t k = true := by
  cases l with
  | nil => cases h
  | cons m l =>
    have hk : k = l.foldl join m := (Option.some.inj h).symm
    obtain ⟨h1, h2, h3⟩ := fold_below l m R (fun t ht => hl t (by simp [ht])) (hl m (by simp)) hR
    rw [hk]
    refine ⟨h1, ?_⟩
    intro t ht
    rcases List.mem_cons.mp ht with rfl | ht
    · exact h3 t (hl t (by simp)) (hr t (hl t (by simp)))
    · exact h2 t ht

theorem range_sub {lo hi lo' hi' : Int} (h1 : lo' ≤ lo) (h2 : hi ≤ hi') {v : Rat} (h : IntRange lo hi v) : IntRange lo' hi' v := by
  obtain ⟨n, a, b, c⟩ := h
  exact ⟨n, by omega, by omega, c⟩

theorem range_binary {lo hi : Int} {m j k : Nat} (h1 : -(2 ^ m : Int) < lo) (h2 : hi < 2 ^ m) {v : Rat} (h : IntRange lo hi v) : Binary m j k v := by
  obtain ⟨n, a, b, c⟩ := h
  exact ⟨n, 0, 0, by omega, by omega, by omega, by omega, by rw [c]⟩

theorem binary_sub {m j k m' j' k' : Nat} (h1 : (2 ^ m : Int) ≤ 2 ^ m') (h2 : j ≤ j') (h3 : k ≤ k') {v : Rat} (h : Binary m j k v) : Binary m' j' k' v := by
  obtain ⟨q, a, b, c, d, e, f, g⟩ := h
  exact ⟨q, a, b, by omega, by omega, by omega, by omega, g⟩

theorem inside_holds {t k : Nat} (ht : t ∈ numTypes) (hk : k ∈ numTypes) (h : inside t k = true) {v : Rat} (hv : Holds t v) : Holds k v := by
  simp only [numTypes, List.mem_cons, List.not_mem_nil, or_false] at ht hk
  rcases ht with rfl | rfl | rfl | rfl | rfl | rfl | rfl | rfl | rfl | rfl | rfl | rfl <;>
  rcases hk with rfl | rfl | rfl | rfl | rfl | rfl | rfl | rfl | rfl | rfl | rfl | rfl <;>
  first
  | exact hv
  | exact absurd h (by decide)
  | exact range_sub (by decide) (by decide) hv
  | exact range_binary (by decide) (by decide) hv
  | exact binary_sub (by decide) (by decide) (by decide) hv

/-- **C113, numbers.** Every number of every file is a number of the type of the column.  Missing: 64-bit integers where the column gets `double`,
and signed and unsigned 64-bit integers where the column is of the other kind (`numbers_lost`). -/
theorem numbers_fit_partial {l : List Block} {tail : List Nat} {n : Nat} (hn : ∀ b ∈ l, Num b) (hs : SameShape l tail n) {b : Block}
    (hb : b ∈ l) : ∃ k, king l = some k ∧ (lossy b.type k.type = false → ∀ v, Holds b.type v → Holds k.type v) := by
  obtain ⟨k, k1, k2, k3, _⟩ := king_num (fun h => by rw [h] at hb; cases hb) hn hs
  refine ⟨k, k1, ?_⟩
  intro hx v hv
  have hl : ∀ t ∈ l.map Block.type, t ∈ numTypes := by
    intro t ht
    obtain ⟨a, ha, rfl⟩ := List.mem_map.mp ht
    exact (hn a ha).type
  have h := (joinAll_rel hl k2 (fun t k => inside t k || lossy t k) (fun t ht => by simp [inside_refl t ht]) inside_join).2 b.type
    (List.mem_map_of_mem hb)
  simp only [hx, Bool.or_false] at h
  exact inside_holds (hn b hb).type k3.type h hv

/-- Items never have to shrink, and where the types differ there is a function for the conversion. -/
theorem numbers_convertible {l : List Block} {tail : List Nat} {n : Nat} (hn : ∀ b ∈ l, Num b) (hs : SameShape l tail n) {b : Block}
    (hb : b ∈ l) : ∃ k, king l = some k ∧ b.item ≤ k.item ∧ (b.type = k.type ∨ canConvert b.type k.type = true) := by
  obtain ⟨k, k1, k2, k3, _⟩ := king_num (fun h => by rw [h] at hb; cases hb) hn hs
  have hl : ∀ t ∈ l.map Block.type, t ∈ numTypes := by
    intro t ht
    obtain ⟨a, ha, rfl⟩ := List.mem_map.mp ht
    exact (hn a ha).type
  have h := (joinAll_rel hl k2 below below_refl below_join).2 b.type (List.mem_map_of_mem hb)
  unfold below at h
  simp only [Bool.and_eq_true, decide_eq_true_eq, Bool.or_eq_true, beq_iff_eq] at h
  refine ⟨k, k1, ?_, h.2⟩
  rw [(hn b hb).item, k3.item]
  exact h.1.1

/-! ### The order of the files -/

/-- Types for which the order of the files does not matter: not both kinds of 64-bit integers; not `float` next to `uint16` and a smaller or
equal signed type. -/
def Steady (l : List Nat) : Prop :=
  ¬(9 ∈ l ∧ 10 ∈ l) ∧ ¬(4 ∈ l ∧ 11 ∈ l ∧ (0 ∈ l ∨ 1 ∈ l ∨ 3 ∈ l))

def small (t : Nat) : Prop := t = 0 ∨ t = 1 ∨ t = 3

instance (t : Nat) : Decidable (small t) := by unfold small; infer_instance

/-- The same for the types which are left and the type of what came before. -/
structure SteadyWith (k : Option Nat) (l : List Nat) : Prop where
  a : ¬(9 ∈ l ∧ 10 ∈ l)
  b : ∀ s ∈ l, small s → ¬(4 ∈ l ∧ 11 ∈ l)
  c : ∀ s, k = some s → small s → ¬(4 ∈ l ∧ 11 ∈ l)
  d : k = some 4 → ∀ s ∈ l, small s → 11 ∉ l

def joinOpt (k : Option Nat) (t : Nat) : Option Nat :=
  match k with
  | none => some t
  | some k => some (join k t)

theorem joinAll_eq (l : List Nat) : joinAll l = l.foldl joinOpt none := by
  cases l with
  | nil => rfl
  | cons t l =>
    show some (l.foldl join t) = l.foldl joinOpt (some t)
    induction l generalizing t with
    | nil => rfl
    | cons o l ih => exact ih (join t o)

theorem swap_table : ∀ k ∈ numTypes, ∀ a ∈ numTypes, ∀ b ∈ numTypes, join (join k a) b = join (join k b) a ∨
    (a = 9 ∧ b = 10) ∨ (a = 10 ∧ b = 9) ∨ (small k ∧ ((a = 4 ∧ b = 11) ∨ (a = 11 ∧ b = 4))) ∨
    (k = 4 ∧ ((small a ∧ b = 11) ∨ (a = 11 ∧ small b))) := by decide +kernel

theorem comm_table : ∀ a ∈ numTypes, ∀ b ∈ numTypes, join a b = join b a ∨ (a = 9 ∧ b = 10) ∨ (a = 10 ∧ b = 9) := by decide +kernel

theorem small_table : ∀ k ∈ numTypes, ∀ a ∈ numTypes, (small (join k a) → small k ∨ small a) ∧ (join k a = 4 → k = 4 ∨ a = 4) := by decide +kernel

/-- What came before is nothing or a type of numbers. -/
def NumOpt (k : Option Nat) : Prop := ∀ s, k = some s → s ∈ numTypes

theorem numOpt_join {k : Option Nat} {a : Nat} (hk : NumOpt k) (ha : a ∈ numTypes) : NumOpt (joinOpt k a) := by
  intro s hs
  cases k with
  | none => rw [← Option.some.inj hs]; exact ha
  | some k => rw [← Option.some.inj hs]; exact join_mem k (hk k rfl) a ha

theorem steady_step {k : Option Nat} {a : Nat} {l : List Nat} (hk : NumOpt k) (ha : a ∈ numTypes) (h : SteadyWith k (a :: l)) :
    SteadyWith (joinOpt k a) l := by
  refine ⟨fun hh => h.a ⟨by simp [hh.1], by simp [hh.2]⟩, fun s hs hx hh => h.b s (by simp [hs]) hx ⟨by simp [hh.1], by simp [hh.2]⟩, ?_, ?_⟩
  · intro s hs hx hh
    cases k with
    | none =>
      have : a = s := Option.some.inj hs
      subst this
      exact h.b a (by simp) hx ⟨by simp [hh.1], by simp [hh.2]⟩
    | some k =>
      have he : join k a = s := Option.some.inj hs
      rw [← he] at hx
      rcases (small_table k (hk k rfl) a ha).1 hx with h1 | h1
      · exact h.c k rfl h1 ⟨by simp [hh.1], by simp [hh.2]⟩
      · exact h.b a (by simp) h1 ⟨by simp [hh.1], by simp [hh.2]⟩
  · intro h4 s hs hx h11
    cases k with
    | none =>
      have : a = 4 := Option.some.inj h4
      exact h.b s (by simp [hs]) hx ⟨by simp [this], by simp [h11]⟩
    | some k =>
      have he : join k a = 4 := Option.some.inj h4
      rcases (small_table k (hk k rfl) a ha).2 he with h1 | h1
      · exact h.d (by rw [h1]) s (by simp [hs]) hx (by simp [h11])
      · exact h.b s (by simp [hs]) hx ⟨by simp [h1], by simp [h11]⟩

theorem steady_perm {k : Option Nat} {l l' : List Nat} (hp : l.Perm l') (h : SteadyWith k l) : SteadyWith k l' :=
  ⟨fun hh => h.a ⟨hp.mem_iff.mpr hh.1, hp.mem_iff.mpr hh.2⟩,
   fun s hs hx hh => h.b s (hp.mem_iff.mpr hs) hx ⟨hp.mem_iff.mpr hh.1, hp.mem_iff.mpr hh.2⟩,
   fun s hs hx hh => h.c s hs hx ⟨hp.mem_iff.mpr hh.1, hp.mem_iff.mpr hh.2⟩,
   fun h4 s hs hx hh => h.d h4 s (hp.mem_iff.mpr hs) hx (hp.mem_iff.mpr hh)⟩

theorem swap_steady {k : Option Nat} {a b : Nat} {l : List Nat} (hk : NumOpt k) (ha : a ∈ numTypes) (hb : b ∈ numTypes)
    (h : SteadyWith k (a :: b :: l)) : joinOpt (joinOpt k a) b = joinOpt (joinOpt k b) a := by
  cases k with
  | none =>
    show some (join a b) = some (join b a)
    rcases comm_table a ha b hb with h1 | h1 | h1
    · rw [h1]
    · exact absurd ⟨by simp [h1.1], by simp [h1.2]⟩ h.a
    · exact absurd ⟨by simp [h1.2], by simp [h1.1]⟩ h.a
  | some k =>
    show some (join (join k a) b) = some (join (join k b) a)
    rcases swap_table k (hk k rfl) a ha b hb with h1 | h1 | h1 | ⟨h1, h2 | h2⟩ | ⟨h1, h2 | h2⟩
    · rw [h1]
    · exact absurd ⟨by simp [h1.1], by simp [h1.2]⟩ h.a
    · exact absurd ⟨by simp [h1.2], by simp [h1.1]⟩ h.a
    · exact absurd ⟨by simp [h2.1], by simp [h2.2]⟩ (h.c k rfl h1)
    · exact absurd ⟨by simp [h2.2], by simp [h2.1]⟩ (h.c k rfl h1)
    · exact absurd (by simp [h2.2]) (h.d (by rw [h1]) a (by simp) h2.1)
    · exact absurd (by simp [h2.1]) (h.d (by rw [h1]) b (by simp) h2.2)

theorem fold_perm {l l' : List Nat} (hp : l.Perm l') : ∀ k : Option Nat, NumOpt k → (∀ t ∈ l, t ∈ numTypes) → SteadyWith k l →
    l.foldl joinOpt k = l'.foldl joinOpt k := by
  induction hp with
  | nil => intro k _ _ _; rfl
  | cons x _ ih =>
    intro k hk hl hs
    exact ih (joinOpt k x) (numOpt_join hk (hl x (by simp))) (fun t ht => hl t (by simp [ht])) (steady_step hk (hl x (by simp)) hs)
  | swap x y l =>
    intro k hk hl hs
    rw [List.foldl_cons, List.foldl_cons, List.foldl_cons, List.foldl_cons, swap_steady hk (hl y (by simp)) (hl x (by simp)) hs]
  | trans h1 h2 ih1 ih2 =>
    intro k hk hl hs
    rw [ih1 k hk hl hs]
    exact ih2 k hk (fun t ht => hl t (h1.mem_iff.mpr ht)) (steady_perm h1 hs)

/-- **C113, order.** The type of a column of numbers does not depend on the order of the files.  Missing: both kinds of 64-bit integers
(`order_matters`), and `float` next to `uint16` and a small signed type, where the column is `float` or `double`. -/
theorem order_free_partial {l l' : List Block} {tail : List Nat} {n : Nat} (hp : l.Perm l') (hl : l ≠ []) (hn : ∀ b ∈ l, Num b)
    (hs : SameShape l tail n) (hd : Steady (l.map Block.type)) :
    ∃ k k', king l = some k ∧ king l' = some k' ∧ k.type = k'.type ∧ k.item = k'.item := by
  obtain ⟨k, k1, k2, k3, _⟩ := king_num hl hn hs
  have hl' : l' ≠ [] := fun h => by rw [h] at hp; exact hl hp.eq_nil
  obtain ⟨k', k1', k2', k3', _⟩ := king_num hl' (fun b hb => hn b (hp.mem_iff.mpr hb)) (hs.sub (fun b hb => hp.mem_iff.mpr hb))
  have hw : SteadyWith none (l.map Block.type) := by
    refine ⟨hd.1, ?_, nofun, nofun⟩
    intro s hs hx hh
    apply hd.2
    refine ⟨hh.1, hh.2, ?_⟩
    rcases hx with rfl | rfl | rfl
    · exact .inl hs
    · exact .inr (.inl hs)
    · exact .inr (.inr hs)
  have he := fold_perm (hp.map Block.type) none nofun
    (fun t ht => by obtain ⟨a, ha, rfl⟩ := List.mem_map.mp ht; exact (hn a ha).type) hw
  rw [← joinAll_eq, ← joinAll_eq, k2, k2'] at he
  have ht := Option.some.inj he
  exact ⟨k, k', k1, k1', ht, by rw [k3.item, k3'.item, ht]⟩

/-! ### Strings -/

/-- A block of byte strings (18) or of strings of 32-bit characters (19). -/
def Str (b : Block) : Prop := b.dtype = 18 ∨ b.dtype = 19

theorem str_type {b : Block} (h : Str b) : b.type = b.dtype := by
  unfold Block.type fixDType
  rcases h with h | h <;> rw [h] <;> rfl

/-- The bytes an item needs in a column of type `t`. -/
def need (t : Nat) (b : Block) : Nat := if t = 19 ∧ b.dtype = 18 then b.item * 4 else b.item

theorem upgrade_str {m : Block} {t i : Nat} (h : t = 18 ∨ t = 19) : upgrade m t i = { m with dtype := t, item := i } := by
  unfold upgrade
  rcases h with rfl | rfl <;> rfl

/-- What one more block of strings makes of the master. -/
def strStep (m o : Block) : Block :=
  if m.dtype = o.dtype then (if m.item < o.item then { m with item := o.item } else m)
  else if m.dtype = 18 then { m with dtype := 19, item := o.item }
  else if o.item * 4 > m.item then { m with item := o.item * 4 } else m

theorem compatType_str {m o : Block} (hm : Str m) (ho : Str o) :
    (compatType true m o).1 = strStep m o ∧ (compatType true m o).2.1 = true ∧
    (compatType false m o).1 = (if m.dtype = 19 ∧ o.dtype = 18 ∧ o.item * 4 > m.item then { m with item := o.item * 4 } else m) := by
  unfold compatType strStep
  rw [str_type hm, str_type ho]
  dsimp only
  rcases hm with hm | hm <;> rcases ho with ho | ho <;> rw [hm, ho]
  · simp only [ne_eq, not_true_eq_false, if_false, true_or, if_true, true_and]
    by_cases hi : m.item = o.item
    · simp [hi]
    · simp only [if_pos hi]
      refine ⟨?_, trivial, by simp⟩
      by_cases hl : m.item < o.item
      · rw [if_pos hl, if_pos hl, upgrade_str (.inl rfl)]
      · rw [if_neg hl, if_neg hl]
  · simp [which, upgrade_str]
  · by_cases hl : o.item * 4 > m.item
    · simp [hl, which, upgrade_str]
    · simp [hl, which]
  · simp only [ne_eq, not_true_eq_false, if_false, or_true, if_true, true_and]
    by_cases hi : m.item = o.item
    · simp [hi]
    · simp only [if_pos hi]
      refine ⟨?_, trivial, by simp⟩
      by_cases hl : m.item < o.item
      · rw [if_pos hl, if_pos hl, upgrade_str (.inr rfl)]
      · rw [if_neg hl, if_neg hl]

theorem strStep_shape (m o : Block) : (strStep m o).dims = m.dims ∧ (strStep m o).c = m.c ∧ (strStep m o).f = m.f := by
  unfold strStep
  split
  · split <;> exact ⟨rfl, rfl, rfl⟩
  · split
    · exact ⟨rfl, rfl, rfl⟩
    · split <;> exact ⟨rfl, rfl, rfl⟩

theorem addColumn_str {m o : Block} {tail : List Nat} {n : Nat} (hm : Str m) (ho : Str o) (hs : SameShape [m, o] tail n) :
    ∃ k, addColumn (some m) o = some k ∧ k.dtype = (strStep m o).dtype ∧ k.item = (strStep m o).item ∧ k.dims = m.dims ∧
      (m.c = true ∧ o.c = true → k.c = true) ∧ (m.f = true ∧ o.f = true → k.f = true) := by
  obtain ⟨t1, t2, _⟩ := compatType_str hm ho
  obtain ⟨d1, d2, d3⟩ := strStep_shape m o
  have hs' : SameShape [strStep m o, o] tail n := by
    refine ⟨?_, ?_, ?_⟩
    · intro b hb
      rcases List.mem_cons.mp hb with rfl | hb
      · rw [d1]; exact hs.len m (by simp)
      · exact hs.len b (by simp at hb; simp [hb])
    · intro b hb
      rcases List.mem_cons.mp hb with rfl | hb
      · rw [d1]; exact hs.tail m (by simp)
      · exact hs.tail b (by simp at hb; simp [hb])
    · refine hs.order.imp ?_ ?_
      · intro h b hb
        rcases List.mem_cons.mp hb with rfl | hb
        · rw [d2]; exact h m (by simp)
        · exact h b (by simp at hb; simp [hb])
      · intro h b hb
        rcases List.mem_cons.mp hb with rfl | hb
        · rw [d3]; exact h m (by simp)
        · exact h b (by simp at hb; simp [hb])
  obtain ⟨s1, s2, s3, s4, s5, s6⟩ := compatShape_ok hs'
  refine ⟨(compatShape true (strStep m o) o).1, ?_, s3, s4, s2.trans d1, ?_, ?_⟩
  · have hc : o.c = true ∨ o.f = true := hs.order.imp (fun h => h o (by simp)) (fun h => h o (by simp))
    have h1 : (compatShape true (strStep m o) o).2.1 = true := by rw [s1]
    have h2 : (compatShape true (strStep m o) o).2.2 = false := by rw [s1]
    unfold addColumn compat
    dsimp only
    rw [if_neg (fun h => h hc), t1, t2, h1, h2]
    rfl
  · intro h; exact s5 ⟨by rw [d2]; exact h.1, h.2⟩
  · intro h; exact s6 ⟨by rw [d3]; exact h.1, h.2⟩

/-- What the master is after some files `p`: as wide as its own kind needs, not wider than any needs, 19 as soon as there is a 19. -/
structure Wide (m : Block) (p : List Block) : Prop where
  str : Str m
  kind : m.dtype = 18 → ∀ b ∈ p, b.dtype = 18
  some : m.dtype = 19 → ∃ b ∈ p, b.dtype = 19
  ge : ∀ b ∈ p, b.dtype = m.dtype → b.item ≤ m.item
  eq : ∃ b ∈ p, need m.dtype b = m.item

theorem wide_step {m o k : Block} {p : List Block} (h : Wide m p) (ho : Str o) (hk : k.dtype = (strStep m o).dtype)
    (hi : k.item = (strStep m o).item) : Wide k (p ++ [o]) := by
  have key : Wide (strStep m o) (p ++ [o]) := by
    unfold strStep
    by_cases hd : m.dtype = o.dtype
    · rw [if_pos hd]
      by_cases hl : m.item < o.item
      · rw [if_pos hl]
        refine ⟨h.str, ?_, ?_, ?_, ⟨o, by simp, ?_⟩⟩
        · intro h18 b hb
          rcases List.mem_append.mp hb with hb | hb
          · exact h.kind h18 b hb
          · simp at hb; rw [hb, ← hd]; exact h18
        · intro h19
          exact ⟨o, by simp, by rw [← hd]; exact h19⟩
        · intro b hb he
          rcases List.mem_append.mp hb with hb | hb
          · have := h.ge b hb he
            show b.item ≤ o.item
            omega
          · simp at hb; rw [hb]; exact Nat.le_refl _
        · unfold need
          show (if m.dtype = 19 ∧ o.dtype = 18 then _ else _) = _
          rw [if_neg (by omega)]
      · rw [if_neg hl]
        refine ⟨h.str, ?_, ?_, ?_, ?_⟩
        · intro h18 b hb
          rcases List.mem_append.mp hb with hb | hb
          · exact h.kind h18 b hb
          · simp at hb; rw [hb, ← hd]; exact h18
        · intro h19
          exact ⟨o, by simp, by rw [← hd]; exact h19⟩
        · intro b hb he
          rcases List.mem_append.mp hb with hb | hb
          · exact h.ge b hb he
          · simp at hb; rw [hb]; omega
        · obtain ⟨b, hb, he⟩ := h.eq
          exact ⟨b, by simp [hb], he⟩
    · rw [if_neg hd]
      by_cases h18 : m.dtype = 18
      · rw [if_pos h18]
        have h19 : o.dtype = 19 := ho.resolve_left (by rw [← h18]; exact fun h => hd h.symm)
        refine ⟨.inr rfl, nofun, fun _ => ⟨o, by simp, h19⟩, ?_, ⟨o, by simp, ?_⟩⟩
        · intro b hb he
          rcases List.mem_append.mp hb with hb | hb
          · have h1 := h.kind h18 b hb
            have h2 : b.dtype = 19 := he
            omega
          · simp at hb; rw [hb]; exact Nat.le_refl _
        · unfold need
          rw [if_neg (by omega)]
      · rw [if_neg h18]
        have h19 : m.dtype = 19 := h.str.resolve_left h18
        have ho18 : o.dtype = 18 := ho.resolve_right (by rw [← h19]; exact fun h => hd h.symm)
        by_cases hl : o.item * 4 > m.item
        · rw [if_pos hl]
          refine ⟨h.str, fun h => absurd h h18, ?_, ?_, ⟨o, by simp, ?_⟩⟩
          · intro hx
            obtain ⟨b, hb, he⟩ := h.some hx
            exact ⟨b, by simp [hb], he⟩
          · intro b hb he
            rcases List.mem_append.mp hb with hb | hb
            · have := h.ge b hb he
              show b.item ≤ o.item * 4
              omega
            · simp at hb
              rw [hb] at he
              have he' : o.dtype = m.dtype := he
              omega
          · unfold need
            rw [if_pos ⟨h19, ho18⟩]
        · rw [if_neg hl]
          refine ⟨h.str, fun h => absurd h h18, ?_, ?_, ?_⟩
          · intro hx
            obtain ⟨b, hb, he⟩ := h.some hx
            exact ⟨b, by simp [hb], he⟩
          · intro b hb he
            rcases List.mem_append.mp hb with hb | hb
            · exact h.ge b hb he
            · simp at hb
              rw [hb] at he
              omega
          · obtain ⟨b, hb, he⟩ := h.eq
            exact ⟨b, by simp [hb], he⟩
  refine ⟨?_, ?_, ?_, ?_, ?_⟩
  · have := key.str; unfold Str at this ⊢; rw [hk]; exact this
  · rw [hk]; exact key.kind
  · rw [hk]; exact key.some
  · rw [hk, hi]; exact key.ge
  · rw [hk, hi]; exact key.eq

theorem fold_str {tail : List Nat} {n : Nat} : ∀ (l p : List Block) (m : Block), Wide m p → (∀ b ∈ p, Str b) → (∀ b ∈ l, Str b) →
    SameShape (m :: l) tail n → ∃ k, l.foldl addColumn (some m) = some k ∧ Wide k (p ++ l) ∧ k.dims = m.dims
  | [], p, m, hw, _, _, _ => ⟨m, rfl, by rw [List.append_nil]; exact hw, rfl⟩
  | o :: l, p, m, hw, hp, hl, hs => by
    obtain ⟨k, k1, k2, k3, k4, k5, k6⟩ := addColumn_str hw.str (hl o (by simp))
      (hs.sub (l' := [m, o]) (by intro b hb; simp at hb; rcases hb with rfl | rfl <;> simp))
    have hs' : SameShape (k :: l) tail n := by
      refine ⟨?_, ?_, ?_⟩
      · intro b hb
        rcases List.mem_cons.mp hb with rfl | hb
        · rw [k4]; exact hs.len m (by simp)
        · exact hs.len b (by simp [hb])
      · intro b hb
        rcases List.mem_cons.mp hb with rfl | hb
        · rw [k4]; exact hs.tail m (by simp)
        · exact hs.tail b (by simp [hb])
      · refine hs.order.imp ?_ ?_
        · intro h b hb
          rcases List.mem_cons.mp hb with rfl | hb
          · exact k5 ⟨h m (by simp), h o (by simp)⟩
          · exact h b (by simp [hb])
        · intro h b hb
          rcases List.mem_cons.mp hb with rfl | hb
          · exact k6 ⟨h m (by simp), h o (by simp)⟩
          · exact h b (by simp [hb])
    have hw' := wide_step hw (hl o (by simp)) k2 k3
    obtain ⟨r, r1, r2, r3⟩ := fold_str l (p ++ [o]) k hw'
      (by intro b hb; rcases List.mem_append.mp hb with hb | hb
          · exact hp b hb
          · simp at hb; rw [hb]; exact hl o (by simp))
      (fun b hb => hl b (by simp [hb])) hs'
    refine ⟨r, ?_, ?_, r3.trans k4⟩
    · rw [List.foldl_cons, k1]; exact r1
    · rw [List.append_assoc] at r2; exact r2

theorem settle_str : ∀ (l : List Block) (m : Block), Str m → (∀ b ∈ l, Str b) →
    (settle m l).dtype = m.dtype ∧ m.item ≤ (settle m l).item ∧ (∀ b ∈ l, m.dtype = 19 → b.dtype = 18 → b.item * 4 ≤ (settle m l).item) ∧
      ((settle m l).item = m.item ∨ (m.dtype = 19 ∧ ∃ b ∈ l, b.dtype = 18 ∧ (settle m l).item = b.item * 4))
  | [], m, _, _ => ⟨rfl, Nat.le_refl _, by simp, .inl rfl⟩
  | o :: l, m, hm, hl => by
    have h1 : settle m (o :: l) = settle (compat false m o).1 l := rfl
    have h2 : (compat false m o).1 = (if m.dtype = 19 ∧ o.dtype = 18 ∧ o.item * 4 > m.item then { m with item := o.item * 4 } else m) := by
      unfold compat
      dsimp only
      rw [compatShape_false]
      exact (compatType_str hm (hl o (by simp))).2.2
    by_cases hc : m.dtype = 19 ∧ o.dtype = 18 ∧ o.item * 4 > m.item
    · rw [if_pos hc] at h2
      obtain ⟨i1, i2, i3, i4⟩ := settle_str l { m with item := o.item * 4 } hm (fun b hb => hl b (by simp [hb]))
      rw [h1, h2]
      refine ⟨i1, ?_, ?_, ?_⟩
      · have : o.item * 4 ≤ (settle { m with item := o.item * 4 } l).item := i2
        omega
      · intro b hb h19 h18
        rcases List.mem_cons.mp hb with rfl | hb
        · exact i2
        · exact i3 b hb h19 h18
      · right
        refine ⟨hc.1, ?_⟩
        rcases i4 with i4 | ⟨_, b, hb, hd, he⟩
        · exact ⟨o, by simp, hc.2.1, i4⟩
        · exact ⟨b, by simp [hb], hd, he⟩
    · rw [if_neg hc] at h2
      obtain ⟨i1, i2, i3, i4⟩ := settle_str l m hm (fun b hb => hl b (by simp [hb]))
      rw [h1, h2]
      refine ⟨i1, i2, ?_, ?_⟩
      · intro b hb h19 h18
        rcases List.mem_cons.mp hb with rfl | hb
        · have : ¬b.item * 4 > m.item := fun h => hc ⟨h19, h18, h⟩
          omega
        · exact i3 b hb h19 h18
      · rcases i4 with i4 | ⟨h19, b, hb, hd, he⟩
        · exact .inl i4
        · exact .inr ⟨h19, b, by simp [hb], hd, he⟩

/-- **C113, strings.** A column of strings is exactly as wide as the widest strings of its files need: byte strings if all files have byte
strings, 32-bit characters if any file has them. -/
theorem strings_fit {l : List Block} {tail : List Nat} {n : Nat} (hl : l ≠ []) (hn : ∀ b ∈ l, Str b) (hs : SameShape l tail n) :
    ∃ k, king l = some k ∧ (k.dtype = 19 ↔ ∃ b ∈ l, b.dtype = 19) ∧ (k.dtype = 18 ↔ ∀ b ∈ l, b.dtype = 18) ∧
      (∀ b ∈ l, need k.dtype b ≤ k.item) ∧ (∃ b ∈ l, need k.dtype b = k.item) := by
  cases l with
  | nil => exact absurd rfl hl
  | cons m l =>
    have hm : Str m := hn m (by simp)
    have hw : Wide m [m] := by
      refine ⟨hm, fun h b hb => by simp at hb; rw [hb]; exact h, fun h => ⟨m, by simp, h⟩,
        fun b hb _ => by simp at hb; rw [hb]; exact Nat.le_refl _, ⟨m, by simp, ?_⟩⟩
      unfold need
      rw [if_neg (by omega)]
    obtain ⟨k, k1, k2, _⟩ := fold_str l [m] m hw (by intro b hb; simp at hb; rw [hb]; exact hm) (fun b hb => hn b (by simp [hb])) hs
    obtain ⟨s1, s2, s3, s4⟩ := settle_str (m :: l) k k2.str hn
    have hc : m.c = true ∨ m.f = true := hs.order.imp (fun h => h m (by simp)) (fun h => h m (by simp))
    refine ⟨settle k (m :: l), ?_, ?_, ?_, ?_, ?_⟩
    · unfold king
      show ((if m.c = true ∨ m.f = true then l.foldl addColumn (some m) else none).map (settle · (m :: l))) = _
      rw [if_pos hc, k1]
      rfl
    · rw [s1]
      refine ⟨k2.some, ?_⟩
      rintro ⟨b, hb, h19⟩
      refine k2.str.resolve_left ?_
      intro h18
      have := k2.kind h18 b hb
      omega
    · rw [s1]
      refine ⟨k2.kind, ?_⟩
      intro h
      refine k2.str.resolve_right ?_
      intro h19
      obtain ⟨b, hb, h'⟩ := k2.some h19
      have := h b hb
      omega
    · intro b hb
      rw [s1]
      unfold need
      by_cases hx : k.dtype = 19 ∧ b.dtype = 18
      · rw [if_pos hx]; exact s3 b hb hx.1 hx.2
      · rw [if_neg hx]
        have hd : b.dtype = k.dtype := by
          rcases k2.str with h18 | h19
          · rw [h18]; exact k2.kind h18 b hb
          · rw [h19]; exact (hn b hb).resolve_left (fun h => hx ⟨h19, h⟩)
        have := k2.ge b hb hd
        omega
    · rw [s1]
      rcases s4 with s4 | ⟨h19, b, hb, hd, he⟩
      · rw [s4]; exact k2.eq
      · refine ⟨b, hb, ?_⟩
        unfold need
        rw [if_pos ⟨h19, hd⟩, he]

def i16 : Block := ⟨3, 2, [5], true, true⟩
def u32 : Block := ⟨6, 4, [7], true, true⟩
def f32 : Block := ⟨11, 4, [2], true, true⟩
def i64 : Block := ⟨7, 8, [2], true, true⟩

theorem num_example : ∀ b ∈ [i16, u32, f32], Num b := by
  intro b hb
  simp only [List.mem_cons, List.not_mem_nil, or_false] at hb
  rcases hb with rfl | rfl | rfl <;> exact ⟨by decide, by decide⟩

theorem shape_example : SameShape [i16, u32, f32] [] 1 := ⟨by decide, by decide, by decide⟩

example : ∃ k, king [i16, u32, f32] = some k ∧ (lossy u32.type k.type = false → ∀ v, Holds u32.type v → Holds k.type v) :=
  numbers_fit_partial num_example shape_example (by decide)
example : king [i16, u32, f32] = some ⟨12, 8, [5], true, true⟩ ∧ lossy u32.type 12 = false := by decide
example : ∃ k, king [i16, u32, f32] = some k ∧ i16.item ≤ k.item ∧ (i16.type = k.type ∨ canConvert i16.type k.type = true) :=
  numbers_convertible num_example shape_example (by decide)
example : ∃ k k', king [i16, u32, f32] = some k ∧ king [u32, i16, f32] = some k' ∧ k.type = k'.type ∧ k.item = k'.item :=
  order_free_partial (List.Perm.swap _ _ _) (by decide) num_example shape_example ⟨by decide, by decide⟩
example : Num i64 ∧ king [i64, i16] = some ⟨7, 8, [2], true, true⟩ ∧ king [i16, i64] = some ⟨9, 8, [5], true, true⟩ :=
  ⟨⟨by decide, by decide⟩, by decide, by decide⟩
example : king [⟨5, 4, [2, 3], true, false⟩, ⟨5, 4, [9, 3], true, false⟩] = some ⟨5, 4, [2, 3], true, false⟩ ∧
    king [⟨5, 4, [2, 3], true, false⟩, ⟨5, 4, [2, 4], true, false⟩] = none ∧ king [⟨5, 4, [2, 3], true, false⟩, ⟨5, 4, [2, 3], false, true⟩] = none ∧
    king [⟨5, 4, [2, 1], true, true⟩, ⟨5, 4, [2, 1], false, true⟩] = some ⟨5, 4, [2, 1], true, true⟩ ∧
    king [⟨5, 4, [2, 1], true, true⟩, ⟨5, 4, [2, 1], true, false⟩] = some ⟨5, 4, [2, 1], true, false⟩ ∧
    king [⟨5, 4, [2], true, true⟩, ⟨5, 4, [2, 1], true, true⟩] = none ∧ king [⟨5, 4, [2], false, false⟩] = none ∧
    king [⟨5, 4, [2], true, true⟩, ⟨5, 4, [2], false, false⟩] = none := by decide

def u10 : Block := ⟨19, 40, [5], true, true⟩
def s3 : Block := ⟨18, 3, [7], true, true⟩
def s20 : Block := ⟨18, 20, [7], true, true⟩

example : ∃ k, king [s20, u10, s3] = some k ∧ (k.dtype = 19 ↔ ∃ b ∈ [s20, u10, s3], b.dtype = 19) ∧ (k.dtype = 18 ↔ ∀ b ∈ [s20, u10, s3], b.dtype = 18) ∧
    (∀ b ∈ [s20, u10, s3], need k.dtype b ≤ k.item) ∧ ∃ b ∈ [s20, u10, s3], need k.dtype b = k.item :=
  strings_fit (tail := []) (n := 1) (by decide) (by unfold Str; decide) ⟨by decide, by decide, by decide⟩
example : king [s20, u10, s3] = some ⟨19, 80, [7], true, true⟩ := by decide
example : king [s20, s3] = some s20 ∧ king [s3, s20] = some s20 := by decide

/-! ### What is refused, and what is wrong -/

/-- Numbers, strings, and everything else. -/
def family (t : Nat) : Nat :=
  match which t with
  | .float | .int | .uint => 0
  | .str => 1
  | .other => 2

theorem upgrade_family {m : Block} {t i : Nat} (h : t ≠ 7 ∧ t ≠ 8) : (upgrade m t i).type = t := by
  unfold upgrade Block.type fixDType
  dsimp only
  rw [if_neg h.1, if_neg h.2]

theorem type_ne (b : Block) : b.type ≠ 7 ∧ b.type ≠ 8 := by
  unfold Block.type fixDType
  split
  · split <;> decide
  · split
    · split <;> decide
    · constructor <;> assumption

theorem mixed_kind (n : Nat) : family (mixed n) = 0 ∧ mixed n ≠ 7 ∧ mixed n ≠ 8 := by
  unfold mixed
  dsimp only
  have h1 : (n ||| 1) % 2 = 1 := by
    simp
  generalize n ||| 1 = t at h1
  by_cases h7 : t = 7
  · rw [if_pos h7]; decide
  · rw [if_neg h7]
    by_cases h9 : t > 9
    · rw [if_pos h9]; decide
    · rw [if_neg h9]
      have : t = 1 ∨ t = 3 ∨ t = 5 ∨ t = 9 := by omega
      rcases this with rfl | rfl | rfl | rfl <;> decide

/-- A block that is accepted has the family of the master, and the master keeps its family. -/
theorem compatType_family {m o : Block} (h : (compatType true m o).2.1 = true) :
    family o.type = family m.type ∧ family (compatType true m o).1.type = family m.type := by
  revert h
  unfold compatType
  dsimp only
  have ht := type_ne o
  by_cases he : m.type = o.type
  · rw [if_neg (by omega), he]
    intro _
    refine ⟨rfl, ?_⟩
    split
    · rename_i hd
      split
      · split
        · have hd' : m.dtype ≠ 7 ∧ m.dtype ≠ 8 := by omega
          rw [upgrade_family hd']
          have : m.type = m.dtype := by unfold Block.type fixDType; rw [if_neg hd'.1, if_neg hd'.2]
          rw [← he, this]
        · rw [he]
      · exact congrArg family he
    · exact congrArg family he
  · rw [if_pos he]
    by_cases hk : which m.type = which o.type
    · have hf : family o.type = family m.type := by unfold family; rw [hk]
      rw [if_pos hk]
      intro _
      refine ⟨hf, ?_⟩
      split
      · rw [if_pos rfl, upgrade_family ht]; exact hf
      · split
        · rename_i hc
          rw [upgrade_family (by omega)]
        · rfl
    · rw [if_neg hk]
      by_cases h1 : (which m.type = .float ∧ (which o.type = .int ∨ which o.type = .uint)) ∨ (which o.type = .float ∧ (which m.type = .int ∨ which m.type = .uint))
      · rw [if_pos h1]
        intro _
        have f1 : family o.type = 0 := by
          unfold family
          rcases h1 with ⟨_, h | h⟩ | ⟨h, _⟩ <;> rw [h]
        have f2 : family m.type = 0 := by
          unfold family
          rcases h1 with ⟨h, _⟩ | ⟨_, h | h⟩ <;> rw [h]
        refine ⟨f1.trans f2.symm, ?_⟩
        rw [if_pos rfl, f2]
        split
        · split
          · rw [upgrade_family (by decide)]; decide
          · exact f2
        · split
          · rw [upgrade_family (by decide)]; decide
          · rw [upgrade_family ht]; exact f1
      · rw [if_neg h1]
        by_cases h2 : (which m.type = .int ∧ which o.type = .uint) ∨ (which m.type = .uint ∧ which o.type = .int)
        · rw [if_pos h2, if_pos rfl]
          intro _
          have f1 : family o.type = 0 := by
            unfold family
            rcases h2 with ⟨_, h⟩ | ⟨_, h⟩ <;> rw [h]
          have f2 : family m.type = 0 := by
            unfold family
            rcases h2 with ⟨h, _⟩ | ⟨h, _⟩ <;> rw [h]
          refine ⟨f1.trans f2.symm, ?_⟩
          rw [f2]
          split
          · exact f2
          · split
            · have := mixed_kind (max m.type o.type)
              rw [upgrade_family this.2]; exact this.1
            · exact f2
        · rw [if_neg h2]
          intro h; cases h

theorem compatShape_type (m o : Block) : (compatShape true m o).1.type = m.type := by
  unfold compatShape
  split
  · rfl
  · split
    · dsimp only
      split
      · split <;> rfl
      · rfl
    · rfl

theorem fold_none : ∀ l : List Block, l.foldl addColumn none = none
  | [] => rfl
  | _ :: l => fold_none l

theorem fold_family : ∀ (l : List Block) (m k : Block), l.foldl addColumn (some m) = some k → ∀ b ∈ l, family b.type = family m.type
  | [], _, _, _, b, hb => by cases hb
  | o :: l, m, k, h, b, hb => by
    rw [List.foldl_cons] at h
    cases ha : addColumn (some m) o with
    | none => rw [ha, fold_none] at h; cases h
    | some r =>
      rw [ha] at h
      unfold addColumn at ha
      dsimp only at ha
      split at ha
      · cases ha
      · split at ha
        · rename_i hok
          have hr : (compat true m o).1 = r := Option.some.inj ha
          unfold compat at hok hr
          simp only [Bool.and_eq_true] at hok
          obtain ⟨f1, f2⟩ := compatType_family hok.1.1
          have f3 : family r.type = family m.type := by
            rw [← hr]
            dsimp only
            rw [compatShape_type]
            exact f2
          rcases List.mem_cons.mp hb with rfl | hb
          · exact f1
          · rw [fold_family l r k h b hb, f3]
        · cases ha

/-- Numbers are never stacked with strings, nor with anything else. -/
theorem families_refused {l : List Block} {k : Block} (h : king l = some k) {a b : Block} (ha : a ∈ l) (hb : b ∈ l) :
    family a.type = family b.type := by
  cases l with
  | nil => cases ha
  | cons m l =>
    unfold king at h
    obtain ⟨r, hr, _⟩ := Option.map_eq_some_iff.mp h
    have hr' : (if m.c = true ∨ m.f = true then l.foldl addColumn (some m) else none) = some r := hr
    split at hr'
    · have key : ∀ b ∈ m :: l, family b.type = family m.type := by
        intro b hb
        rcases List.mem_cons.mp hb with rfl | hb
        · rfl
        · exact fold_family l m r hr' b hb
      rw [key a ha, key b hb]
    · cases hr'

/-- The families: numbers are the types up to 13, strings are 18 and 19. -/
theorem family_iff (t : Nat) : (family t = 0 ↔ t ≤ 13) ∧ (family t = 1 ↔ t = 18 ∨ t = 19) := by
  unfold family which
  by_cases h1 : t ≤ 13
  · rw [if_pos h1]
    refine ⟨?_, ?_⟩
    · split <;> simp_all
      all_goals (split at * <;> simp_all <;> split at * <;> simp_all)
    · have : ¬(t = 18 ∨ t = 19) := by omega
      split <;> simp_all
      all_goals (split at * <;> simp_all <;> split at * <;> simp_all)
  · rw [if_neg h1]
    by_cases h2 : t = 18 ∨ t = 19
    · rw [if_pos h2]; simp [h1, h2]
    · rw [if_neg h2]; simp [h1, h2]

/-- `long` has the type of its size. -/
theorem long_types (b : Block) : (b.dtype = 7 → b.item = 4 → b.type = 5) ∧ (b.dtype = 7 → b.item = 8 → b.type = 9) ∧
    (b.dtype = 8 → b.item = 4 → b.type = 6) ∧ (b.dtype = 8 → b.item = 8 → b.type = 10) ∧ (b.dtype ≠ 7 → b.dtype ≠ 8 → b.type = b.dtype) := by
  unfold Block.type fixDType
  refine ⟨?_, ?_, ?_, ?_, ?_⟩ <;> intro h1 h2 <;> simp [h1, h2]

example : king [s3, ⟨5, 4, [7], true, true⟩] = none := by decide
example : king [s3, ⟨20, 3, [7], true, true⟩] = none := by decide
example : king [⟨8, 8, [7], true, true⟩, ⟨11, 4, [7], true, true⟩] = some ⟨12, 8, [7], true, true⟩ ∧
    king [⟨8, 8, [7], true, true⟩, ⟨10, 8, [7], true, true⟩] = some ⟨8, 8, [7], true, true⟩ := by decide
example : family s3.type = family u10.type := families_refused (l := [s20, u10, s3]) (k := ⟨19, 80, [7], true, true⟩) (by decide) (by decide) (by decide)

theorem upgrade_order (m : Block) (t i : Nat) : (upgrade m t i).c = m.c ∧ (upgrade m t i).f = m.f ∧ (upgrade m t i).dims = m.dims := ⟨rfl, rfl, rfl⟩

theorem compatType_order (fix : Bool) (m o : Block) :
    (compatType fix m o).1.c = m.c ∧ (compatType fix m o).1.f = m.f ∧ (compatType fix m o).1.dims = m.dims := by
  unfold compatType
  dsimp only
  repeat' split
  all_goals exact ⟨rfl, rfl, rfl⟩

/-- The same order: where both blocks have rows and columns, one order which both have. -/
def Ordered (m o : Block) : Prop := (m.c = true → o.c = true) ∧ (m.f = true → o.f = true)

theorem addColumn_order {m o k : Block} (hd : 1 < m.dims.length) (hm : m.c = !m.f) (h : addColumn (some m) o = some k) :
    Ordered m o ∧ k.c = m.c ∧ k.f = m.f ∧ k.dims = m.dims := by
  unfold addColumn at h
  dsimp only at h
  split at h
  · cases h
  · rename_i hc
    split at h
    · rename_i hr
      have hk := Option.some.inj h
      simp only [Bool.and_eq_true, Bool.not_eq_true'] at hr
      obtain ⟨t1, t2, t3⟩ := compatType_order true m o
      have h1 : (compatShape true (compatType true m o).1 o).2.2 = false := hr.2
      have h0 : (compatShape true (compatType true m o).1 o).2.1 = true := by
        have := hr.1
        unfold compat at this
        simp only [Bool.and_eq_true] at this
        exact this.2
      have h2 : (compatShape true (compatType true m o).1 o).1 = k := hk
      generalize (compatType true m o).1 = n at t1 t2 t3 h0 h1 h2
      unfold compatShape at h0 h1 h2
      by_cases hl : n.dims.length ≠ o.dims.length
      · rw [if_pos hl] at h0; cases h0
      · rw [if_neg hl, if_pos (by rw [t3]; exact hd)] at h1 h2
        dsimp only at h1 h2
        by_cases hx : ¬(o.c = true ∧ o.f = true) ∧ n.f ≠ o.f
        · rw [if_pos hx] at h1
          have hy : ¬(true = true ∧ n.c = true ∧ n.f = true) := by
            rw [t1, t2, hm]
            cases m.f <;> decide
          rw [if_neg hy] at h1
          cases h1
        · rw [if_neg hx] at h2
          subst h2
          refine ⟨?_, t1, t2, t3⟩
          rw [t2] at hx
          unfold Ordered
          rw [hm]
          revert hc hx
          cases m.f <;> cases o.c <;> cases o.f <;> simp
    · cases h

theorem fold_order : ∀ (l : List Block) (m k : Block), 1 < m.dims.length → m.c = (!m.f) → l.foldl addColumn (some m) = some k →
    ∀ b ∈ l, Ordered m b
  | [], _, _, _, _, _, b, hb => by cases hb
  | o :: l, m, k, hd, hm, h, b, hb => by
    rw [List.foldl_cons] at h
    cases ha : addColumn (some m) o with
    | none => rw [ha, fold_none] at h; cases h
    | some r =>
      rw [ha] at h
      obtain ⟨o1, o2, o3, o4⟩ := addColumn_order hd hm ha
      rcases List.mem_cons.mp hb with rfl | hb
      · exact o1
      · have := fold_order l r k (by rw [o4]; exact hd) (by rw [o2, o3]; exact hm) h b hb
        unfold Ordered at this ⊢
        rw [o2, o3] at this
        exact this

/-- Arrays of several dimensions are stacked only when all of them have the order of the first.  Missing: a first array with both orders, that
is with one row or with one column (`orders_mixed`). -/
theorem orders_agree_partial {m : Block} {l : List Block} {k : Block} (hd : 1 < m.dims.length) (hm : m.c = !m.f) (h : king (m :: l) = some k) :
    ∀ b ∈ l, Ordered m b := by
  unfold king at h
  obtain ⟨r, hr, _⟩ := Option.map_eq_some_iff.mp h
  have hr' : (if m.c = true ∨ m.f = true then l.foldl addColumn (some m) else none) = some r := hr
  split at hr'
  · exact fold_order l m r hd hm hr'
  · cases hr'

example : Ordered ⟨5, 4, [5, 3], true, false⟩ ⟨5, 4, [1, 3], true, true⟩ :=
  orders_agree_partial (l := [⟨5, 4, [7, 3], true, false⟩, ⟨5, 4, [1, 3], true, true⟩]) (k := ⟨5, 4, [5, 3], true, false⟩) (by decide) rfl (by decide) _ (by decide)

/-- After a first array with one row, arrays of both orders are accepted: the first in Fortran order does not change the order of the column, the
next in C order does.  The rows of the second are then read as if they were in C order; `NeedsRotation` is not looked at again. -/
theorem orders_mixed : ∃ a b c k : Block, king [a, b, c] = some k ∧ a.dims = [1, 3] ∧ (b.c = false ∧ b.f = true) ∧ (c.c = true ∧ c.f = false) ∧
    (k.c = true ∧ k.f = false) ∧ (compat false k b).2.rotate = true :=
  ⟨⟨5, 4, [1, 3], true, true⟩, ⟨5, 4, [5, 3], false, true⟩, ⟨5, 4, [7, 3], true, false⟩, ⟨5, 4, [1, 3], true, false⟩, by decide, rfl, by decide, by decide,
    by decide, by decide⟩

/-- Complex numbers of two sizes are stacked, but there is no function which converts them: the items of the smaller size stay as they are,
in a column with items of the larger size. -/
theorem complex_not_converted : ∃ a b : Block, ∃ k, king [a, b] = some k ∧ (compat false k a).2 = ⟨true, false, true, false⟩ ∧
    a.item < k.item ∧ canConvert a.type k.type = false :=
  ⟨⟨14, 8, [2], true, true⟩, ⟨15, 16, [3], true, true⟩, ⟨15, 16, [2], true, true⟩, by decide, by decide, by decide, by decide⟩

theorem odd_not_double : ¬Holds 12 ((2 ^ 53 + 1 : Int) : Rat) := by
  rintro ⟨q, a, b, h1, h2, _, _, h⟩
  have h3 : ((2 ^ 53 + 1 : Int) * 2 ^ b) = q * 2 ^ a := by
    apply Rat.intCast_inj.mp
    rw [Rat.intCast_mul, Rat.intCast_mul, Rat.intCast_pow, Rat.intCast_pow]
    exact h
  rcases Nat.lt_or_ge a b with hab | hab
  · obtain ⟨d, rfl⟩ := Nat.exists_eq_add_of_lt hab
    have hp : (0 : Int) < 2 ^ a := Int.pow_pos (by decide)
    rw [show a + d + 1 = (d + 1) + a by omega, Int.pow_add, ← Int.mul_assoc] at h3
    have h4 := Int.eq_of_mul_eq_mul_right (by omega) h3
    have hd : (0 : Int) < 2 ^ (d + 1) := Int.pow_pos (by decide)
    generalize (2 : Int) ^ (d + 1) = x at h4 hd
    omega
  · obtain ⟨d, rfl⟩ := Nat.exists_eq_add_of_le hab
    have hp : (0 : Int) < 2 ^ b := Int.pow_pos (by decide)
    rw [show b + d = d + b by omega, Int.pow_add, ← Int.mul_assoc] at h3
    have h4 := Int.eq_of_mul_eq_mul_right (by omega) h3
    cases d with
    | zero => rw [Int.pow_zero] at h4; omega
    | succ d =>
      have h5 : (2 : Int) ^ (d + 1) = 2 ^ d * 2 := Int.pow_succ 2 d
      rw [h5, ← Int.mul_assoc] at h4
      generalize q * (2 : Int) ^ d = x at h4
      omega

/-- Numbers which are lost: 2^53 + 1 in a column which gets `double`, 2^64 - 1 in one of signed and -1 in one of unsigned integers. -/
theorem numbers_lost :
    (∃ k, king [⟨9, 8, [2], true, true⟩, ⟨11, 4, [2], true, true⟩] = some k ∧ Holds 9 ((2 ^ 53 + 1 : Int) : Rat) ∧ ¬Holds k.type ((2 ^ 53 + 1 : Int) : Rat)) ∧
    (∃ k, king [⟨10, 8, [2], true, true⟩, ⟨1, 1, [2], true, true⟩] = some k ∧ Holds 10 ((2 ^ 64 - 2 : Int) : Rat) ∧ ¬Holds k.type ((2 ^ 64 - 2 : Int) : Rat)) ∧
    (∃ k, king [⟨0, 1, [2], true, true⟩, ⟨10, 8, [2], true, true⟩] = some k ∧ Holds 10 ((2 ^ 64 - 2 : Int) : Rat) ∧ ¬Holds k.type ((2 ^ 64 - 2 : Int) : Rat)) ∧
    (∃ k, king [⟨10, 8, [2], true, true⟩, ⟨9, 8, [2], true, true⟩] = some k ∧ Holds 9 ((-1 : Int) : Rat) ∧ ¬Holds k.type ((-1 : Int) : Rat)) := by
  refine ⟨⟨⟨12, 8, [2], true, true⟩, by decide, ⟨2 ^ 53 + 1, by omega, by omega, rfl⟩, odd_not_double⟩,
    ⟨⟨9, 8, [2], true, true⟩, by decide, ⟨2 ^ 64 - 2, by omega, by omega, rfl⟩, ?_⟩,
    ⟨⟨9, 8, [2], true, true⟩, by decide, ⟨2 ^ 64 - 2, by omega, by omega, rfl⟩, ?_⟩,
    ⟨⟨10, 8, [2], true, true⟩, by decide, ⟨-1, by omega, by omega, rfl⟩, ?_⟩⟩
  · rintro ⟨n, _, h1, h2⟩
    have h4 := Rat.intCast_inj.mp h2
    omega
  · rintro ⟨n, _, h1, h2⟩
    have h4 := Rat.intCast_inj.mp h2
    omega
  · rintro ⟨n, h1, _, h2⟩
    have h4 := Rat.intCast_inj.mp h2
    omega

/-- The order of the files can matter. -/
theorem order_matters :
    (∃ k, king [⟨9, 8, [2], true, true⟩, ⟨10, 8, [2], true, true⟩] = some k ∧ k.type = 9) ∧
    (∃ k, king [⟨10, 8, [2], true, true⟩, ⟨9, 8, [2], true, true⟩] = some k ∧ k.type = 10) ∧
    (∃ k, king [⟨1, 1, [2], true, true⟩, ⟨11, 4, [2], true, true⟩, ⟨4, 2, [2], true, true⟩] = some k ∧ k.type = 11) ∧
    (∃ k, king [⟨1, 1, [2], true, true⟩, ⟨4, 2, [2], true, true⟩, ⟨11, 4, [2], true, true⟩] = some k ∧ k.type = 12) :=
  ⟨⟨_, rfl, by decide⟩, ⟨_, rfl, by decide⟩, ⟨_, rfl, by decide⟩, ⟨_, rfl, by decide⟩⟩

end Riptide.Stack
