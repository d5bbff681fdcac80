import Verif.Binary.Compare
import Verif.Binary.Spec
/-! The loops over two arrays treat every row, under every schedule. -/
namespace Riptide.Binary
open Riptide.Work Spec

theorem mapM_some_range {β : Type} (n : Nat) (f : Nat → Option β) (g : Nat → β) (h : ∀ i, i < n → f i = some (g i)) :
    (List.range n).mapM f = some ((List.range n).map g) :=
  mapM_some f g _ fun i hi => h i (by simpa using hi)

theorem flatten_blocks {β : Type} (g : Nat → β) (w k : Nat) :
    ((List.range k).map fun (i : Nat) => (List.range' (i * w) w).map g).flatten = (List.range (k * w)).map g := by
  induction k with
  | zero => simp
  | succ k ih =>
    rw [List.range_succ, List.map_append, List.flatten_append, ih]
    simp only [List.map_cons, List.map_nil, List.flatten_cons, List.flatten_nil, List.append_nil]
    rw [← List.map_append, List.range_eq_range', List.range_eq_range']
    congr 1
    have := List.range'_append (s := 0) (m := k * w) (n := w) (step := 1)
    simp only [Nat.zero_add, Nat.one_mul] at this
    rw [this, Nat.succ_mul]

theorem blockLoop_eq {β : Type} (w len : Nat) (fast : Nat → Option (List β)) (tail : Nat → Option β) (g : Nat → β)
    (_hw : 0 < w)
    (hf : ∀ i, i * w + w ≤ len → fast i = some ((List.range' (i * w) w).map g))
    (ht : ∀ i, i < len → tail i = some (g i)) :
    blockLoop w len fast tail = some ((List.range len).map g) := by
  have hle : len / w * w ≤ len := Nat.div_mul_le_self len w
  rw [blockLoop]
  rw [mapM_some_range (len / w) fast (fun (i : Nat) => (List.range' (i * w) w).map g)
    (fun i hi => hf i (by
      have := Nat.mul_le_mul_right w (show i + 1 ≤ len / w from hi)
      rw [Nat.succ_mul] at this; omega))]
  rw [mapM_some_range (len - len / w * w) _ (fun (i : Nat) => g (len / w * w + i)) (fun i hi => ht _ (by omega))]
  simp only [Option.bind_eq_bind, Option.bind_some, Option.pure_def]
  rw [flatten_blocks]
  congr 1
  have h2 : (List.range (len - len / w * w)).map (fun (i : Nat) => g (len / w * w + i))
      = (List.range' (len / w * w) (len - len / w * w)).map g := by
    rw [List.range'_eq_map_range, List.map_map]; rfl
  rw [h2, ← List.map_append, List.range_eq_range', List.range_eq_range']
  congr 1
  have := List.range'_append (s := 0) (m := len / w * w) (n := len - len / w * w) (step := 1)
  simp only [Nat.zero_add, Nat.one_mul] at this
  rw [this]
  congr 1; omega

theorem loadu_feeds {α : Type} (w k len : Nat) (m : List α) (x : Nat → α) (h : ∀ i : Nat, i < len → m[i]? = some (x i))
    (hk : k * w + w ≤ len) : loadu w k m = some ((List.range' (k * w) w).map x) := by
  have hlen : len ≤ m.length := by
    apply Nat.le_of_not_lt
    intro hlt
    have := h m.length hlt
    simp at this
  rw [loadu, if_pos (by omega)]
  congr 1
  apply List.ext_getElem?
  intro j
  by_cases hj : j < w
  · rw [List.getElem?_take_of_lt hj, List.getElem?_drop, h _ (by omega)]
    simp [hj]
  · rw [List.getElem?_eq_none (by simp; omega), List.getElem?_eq_none (by simp; omega)]

theorem loadu_scalar {n : Nat} (w : Nat) (v : BitVec n) (hw : w ≤ 256 / n) :
    loadu w 0 (List.replicate (256 / n) v) = some (List.replicate w v) := by
  rw [loadu, if_pos (by simp; omega)]
  simp only [Nat.zero_mul, List.drop_zero, List.take_replicate, Nat.min_eq_left hw]

theorem zipWith_range' {α β γ : Type} (f : α → β → γ) (x : Nat → α) (y : Nat → β) (s w : Nat) :
    List.zipWith f ((List.range' s w).map x) ((List.range' s w).map y) = (List.range' s w).map fun (i : Nat) => f (x i) (y i) := by
  rw [List.zipWith_map, List.zipWith_self]

theorem replicate_range' {α : Type} (v : α) (s w : Nat) : List.replicate w v = (List.range' s w).map fun _ => v := by
  rw [List.map_const', List.length_range']

theorem callBlock_eq {n : Nat} {β : Type} (run : List (BitVec n) → List (BitVec n) → Nat → Option (List β)) (mode : Mode)
    (a b : List (BitVec n)) (len : Nat) (x y : Nat → BitVec n) (g : Nat → β)
    (hrun : ∀ (a' b' : List (BitVec n)) (s l : Nat), s + l ≤ len → Feeds (mode = .first) l a' (fun i => x (s + i)) →
      Feeds (mode = .second) l b' (fun i => y (s + i)) → run a' b' l = some ((List.range l).map fun (i : Nat) => g (s + i)))
    (ha : Feeds (mode = .first) len a x) (hb : Feeds (mode = .second) len b y) (s l : Nat) (hs : s + l ≤ len) :
    callBlock run mode a b s l = elemBlock (fun i => some (g i)) s l := by
  rw [callBlock, hrun _ _ s l hs, elemBlock]
  · rw [mapM_some (fun (i : Nat) => Option.map (fun v => (i, v)) (some (g i))) (fun (i : Nat) => (i, g i)) _ (fun i _ => rfl)]
    simp only [Option.bind_eq_bind, Option.bind_some, Option.pure_def]
    congr 1
    rw [List.range'_eq_map_range]
    apply List.ext_getElem?
    intro j
    by_cases hj : j < l
    · simp [hj]
    · rw [List.getElem?_eq_none (by simp; omega), List.getElem?_eq_none (by simp; omega)]
  · unfold Feeds at ha ⊢
    by_cases h : mode = .first
    · simp only [h, decide_true, if_true] at ha ⊢
      obtain ⟨v, rfl, hv⟩ := ha
      exact ⟨v, rfl, fun i => hv _⟩
    · simp only [h, decide_false, Bool.false_eq_true, if_false] at ha ⊢
      intro i hi
      rw [List.getElem?_drop]; exact ha _ (by omega)
  · unfold Feeds at hb ⊢
    by_cases h : mode = .second
    · simp only [h, decide_true, if_true] at hb ⊢
      obtain ⟨v, rfl, hv⟩ := hb
      exact ⟨v, rfl, fun i => hv _⟩
    · simp only [h, decide_false, Bool.false_eq_true, if_false] at hb ⊢
      intro i hi
      rw [List.getElem?_drop]; exact hb _ (by omega)

/-- If a loop treats the rows of every stretch, every schedule treats all rows. -/
theorem twoStub_eq {n : Nat} {β : Type} (run : List (BitVec n) → List (BitVec n) → Nat → Option (List β)) (mode : Mode)
    (a b : List (BitVec n)) (len : Nat) (x y : Nat → BitVec n) (g : Nat → β)
    (hrun : ∀ (a' b' : List (BitVec n)) (s l : Nat), s + l ≤ len → Feeds (mode = .first) l a' (fun i => x (s + i)) →
      Feeds (mode = .second) l b' (fun i => y (s + i)) → run a' b' l = some ((List.range l).map fun (i : Nat) => g (s + i)))
    (ha : Feeds (mode = .first) len a x) (hb : Feeds (mode = .second) len b y)
    {workers : Nat} {nt : Bool} {par : Option (List Nat)} (h : ChunkSched workers len nt par) :
    twoStub run mode a b len par = some (((List.range len).map g).map some) := by
  rw [← elemWork_exact (fun i => some (g i)) g (fun _ _ => rfl) h]
  show Option.bind _ _ = _
  refine congrArg (fun z => Option.bind z (runWrites len)) ?_
  rcases h.cases with ⟨rfl, _⟩ | ⟨calls, rfl, _, hp⟩
  · exact callBlock_eq run mode a b len x y g hrun ha hb 0 len (by omega)
  · rw [elemWork]
    refine congrArg (fun z => Option.map List.flatten z) ?_
    have hall : ∀ c ∈ calls, callBlock run mode a b (chunk * c) (blockLen len chunk (blockLastGeneric len chunk) c)
        = elemBlock (fun i => some (g i)) (chunk * c) (blockLen len chunk (blockLastGeneric len chunk) c) := by
      intro c hc
      have hc' : c < blockLastGeneric len chunk := by simpa using hp.mem_iff.1 hc
      by_cases hz : blockLen len chunk (blockLastGeneric len chunk) c = 0
      · rw [hz]
        have h0 : chunk * c ≤ len := by
          unfold blockLastGeneric at hc'
          have hcp : 0 < chunk := by decide
          have h1 : c * chunk < len := by
            have h3 : (c + 1) * chunk ≤ (len + (chunk - 1)) / chunk * chunk := Nat.mul_le_mul_right _ hc'
            have h4 := Nat.div_mul_le_self (len + (chunk - 1)) chunk
            rw [Nat.succ_mul] at h3
            omega
          rw [Nat.mul_comm]; omega
        exact callBlock_eq run mode a b len x y g hrun ha hb _ 0 (by omega)
      · apply callBlock_eq run mode a b len x y g hrun ha hb
        have hmem : chunk * c + (blockLen len chunk (blockLastGeneric len chunk) c - 1) ∈ blockRows len chunk c := by
          rw [blockRows, List.mem_range'_1]; omega
        have : chunk * c + (blockLen len chunk (blockLastGeneric len chunk) c - 1)
            ∈ (List.range (blockLastGeneric len chunk)).flatMap (blockRows len chunk) :=
          List.mem_flatMap.2 ⟨c, by simpa using hc', hmem⟩
        rw [blocks_cover] at this
        have := List.mem_range.1 this
        omega
    clear hp h
    induction calls with
    | nil => rfl
    | cons c cs ih =>
      rw [List.mapM_cons, List.mapM_cons, hall c (by simp), ih (fun d hd => hall d (by simp [hd]))]

end Riptide.Binary
