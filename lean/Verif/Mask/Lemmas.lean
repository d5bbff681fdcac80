import Verif.Mask.Model
import Verif.Mask.Spec
import Verif.Work.Sched
/-! Helper lemmas for boolean masks. -/
namespace Riptide.Mask
open Riptide.Work

/-! ### Vector sum -/

theorem sum_zipWith_mod (w : Nat) : ∀ (x y : List Nat), x.length = y.length →
    (∀ a ∈ x, ∀ b ∈ y, a + b < 2 ^ w) →
    (List.zipWith (fun x y => (x + y) % 2 ^ w) x y).sum = x.sum + y.sum
  | [], [], _, _ => rfl
  | a :: x, b :: y, hl, hb => by
    have := sum_zipWith_mod w x y (by simpa using hl)
      (fun a ha b hb' => hb a (by simp [ha]) b (by simp [hb']))
    simp only [List.zipWith_cons_cons, List.sum_cons, this]
    rw [Nat.mod_eq_of_lt (hb a (by simp) b (by simp))]; omega

theorem mem_zipWith {f : α → β → γ} : ∀ {x : List α} {y : List β} {c : γ},
    c ∈ List.zipWith f x y → ∃ a ∈ x, ∃ b ∈ y, c = f a b
  | [], _, _, h => by simp at h
  | _ :: _, [], _, h => by simp at h
  | a :: x, b :: y, c, h => by
    simp only [List.zipWith_cons_cons, List.mem_cons] at h
    rcases h with rfl | h
    · exact ⟨a, by simp, b, by simp, rfl⟩
    · obtain ⟨a', ha, b', hb, e⟩ := mem_zipWith h
      exact ⟨a', by simp [ha], b', by simp [hb], e⟩

theorem widenAdd_spec (w B q : Nat) (l : List Nat) (hl : l.length = 4 * q)
    (hb : ∀ a ∈ l, a ≤ B) (hw : 2 * B < 2 ^ w) :
    (widenAdd w l).sum = l.sum ∧ (widenAdd w l).length = 2 * q ∧
      ∀ a ∈ widenAdd w l, a ≤ 2 * B := by
  have hq : l.length / 4 = q := by omega
  unfold widenAdd
  simp only [hq]
  have hlen1 : (l.take q ++ (l.drop (2 * q)).take q).length = 2 * q := by simp; omega
  have hlen2 : ((l.drop q).take q ++ l.drop (3 * q)).length = 2 * q := by simp; omega
  have hm1 : ∀ a ∈ (l.take q ++ (l.drop (2 * q)).take q), a ≤ B := by
    intro a ha
    rcases List.mem_append.1 ha with h | h
    · exact hb a (List.mem_of_mem_take h)
    · exact hb a (List.mem_of_mem_drop (List.mem_of_mem_take h))
  have hm2 : ∀ a ∈ ((l.drop q).take q ++ l.drop (3 * q)), a ≤ B := by
    intro a ha
    rcases List.mem_append.1 ha with h | h
    · exact hb a (List.mem_of_mem_drop (List.mem_of_mem_take h))
    · exact hb a (List.mem_of_mem_drop h)
  refine ⟨?_, ?_, ?_⟩
  · rw [sum_zipWith_mod]
    · have e1 : l.sum = (l.take q).sum + (l.drop q).sum := by
        rw [← List.sum_append, List.take_append_drop]
      have e2 : (l.drop q).sum = ((l.drop q).take q).sum + ((l.drop (2*q))).sum := by
        conv => lhs; rw [← List.take_append_drop q (l.drop q)]
        rw [List.sum_append, List.drop_drop]; congr 3; omega
      have e3 : (l.drop (2*q)).sum = ((l.drop (2*q)).take q).sum + ((l.drop (3*q))).sum := by
        conv => lhs; rw [← List.take_append_drop q (l.drop (2*q))]
        rw [List.sum_append, List.drop_drop]; congr 3; omega
      simp only [List.sum_append]; omega
    · rw [hlen1, hlen2]
    · intro a ha b hb'; have := hm1 a ha; have := hm2 b hb'; omega
  · rw [List.length_zipWith, hlen1, hlen2]; simp
  · intro a ha
    obtain ⟨x, hx, y, hy, rfl⟩ := mem_zipWith ha
    have := hm1 x hx; have := hm2 y hy
    rw [Nat.mod_eq_of_lt (by omega)]; omega

theorem horizontal_eq (pc : List Byte) (h : pc.length = 32) :
    horizontal pc = (pc.map BitVec.toNat).sum := by
  have h0 : ∀ a ∈ pc.map BitVec.toNat, a ≤ 255 := by
    intro a ha
    obtain ⟨b, _, rfl⟩ := List.mem_map.1 ha
    have := b.isLt; omega
  have h1 := widenAdd_spec 16 255 8 (pc.map BitVec.toNat) (by simpa using h) h0 (by decide)
  have h2 := widenAdd_spec 32 510 4 _ h1.2.1 h1.2.2 (by decide)
  have h3 := widenAdd_spec 64 1020 2 _ h2.2.1 h2.2.2 (by decide)
  unfold horizontal
  rw [h3.1, h2.1, h1.1]

/-- Number of non-zero bytes at offsets `[s, s+n)`. -/
def cnt (m : Mem) (s n : Nat) : Nat :=
  (List.range' s n).countP fun (a : Nat) => decide (m (a : Int) ≠ 0#8)

theorem cnt_add (m : Mem) (s a b : Nat) : cnt m s (a + b) = cnt m s a + cnt m (s + a) b := by
  unfold cnt
  rw [← List.countP_append]
  congr 1
  simp

theorem sum_cstyle (v : List Byte) :
    ((cstyleBools v).map BitVec.toNat).sum = v.countP (fun b => decide (b ≠ 0#8)) := by
  induction v with
  | nil => rfl
  | cons b v ih =>
    have hb : (if 1#8 ≤ b then 1#8 else b).toNat = if b ≠ 0#8 then 1 else 0 := by
      by_cases h : b = 0#8
      · subst h; decide
      · have h1 : (1#8 : Byte) ≤ b := by
          have : b.toNat ≠ 0 := fun e => h (BitVec.eq_of_toNat_eq (by simpa using e))
          exact BitVec.le_def.2 (by simp; omega)
        simp [h, h1]
    simp only [cstyleBools, List.map_cons, List.sum_cons, List.countP_cons] at *
    rw [ih, hb]
    by_cases h : b = 0#8 <;> simp [h]; omega

theorem cstyle_le (v : List Byte) : ∀ b ∈ cstyleBools v, b.toNat ≤ 1 := by
  intro b hb
  obtain ⟨a, _, rfl⟩ := List.mem_map.1 hb
  split
  · decide
  · rename_i h
    have : a.toNat < 1 := by
      have := BitVec.not_le.1 h
      simpa using BitVec.lt_def.1 this
    omega

theorem addEpi8_spec : ∀ (x y : List Byte) (B : Nat), x.length = y.length → B < 255 →
    (∀ a ∈ x, a.toNat ≤ B) → (∀ b ∈ y, b.toNat ≤ 1) →
    (addEpi8 x y).length = x.length ∧ (∀ a ∈ addEpi8 x y, a.toNat ≤ B + 1) ∧
    ((addEpi8 x y).map BitVec.toNat).sum = (x.map BitVec.toNat).sum + (y.map BitVec.toNat).sum
  | [], [], B, _, _, _, _ => by simp [addEpi8]
  | a :: x, b :: y, B, hl, hB, hx, hy => by
    have ih := addEpi8_spec x y B (by simpa using hl) hB (fun a h => hx a (by simp [h]))
      (fun a h => hy a (by simp [h]))
    have ha := hx a (by simp)
    have hb := hy b (by simp)
    have e : (a + b).toNat = a.toNat + b.toNat := by
      rw [BitVec.toNat_add]; exact Nat.mod_eq_of_lt (by omega)
    simp only [addEpi8, List.zipWith_cons_cons] at *
    refine ⟨by simp [ih.1], ?_, ?_⟩
    · intro c hc
      rcases List.mem_cons.1 hc with rfl | hc
      · omega
      · exact ih.2.1 c hc
    · simp only [List.map_cons, List.sum_cons, ih.2.2, e]; omega

theorem loadVec_count (m : Mem) (i : Nat) :
    (loadVec m i).countP (fun b => decide (b ≠ 0#8)) = cnt m (32 * i) 32 := by
  unfold loadVec cnt
  rw [List.countP_map, List.range'_eq_map_range, List.countP_map]
  congr 1

theorem inner_spec (m : Mem) (i : Nat) : ∀ iters, iters ≤ 255 →
    let pc := (List.range iters).foldl
      (fun acc j => addEpi8 acc (cstyleBools (loadVec m (i + j)))) (List.replicate 32 0#8)
    pc.length = 32 ∧ (∀ a ∈ pc, a.toNat ≤ iters) ∧
      (pc.map BitVec.toNat).sum = cnt m (32 * i) (32 * iters) := by
  intro iters
  induction iters with
  | zero => intro _; simp [cnt]
  | succ n ih =>
    intro hn
    have ih := ih (by omega)
    simp only [List.range_succ, List.foldl_append, List.foldl_cons, List.foldl_nil] at *
    have hlen : (cstyleBools (loadVec m (i + n))).length = 32 := by simp [cstyleBools, loadVec]
    have := addEpi8_spec _ (cstyleBools (loadVec m (i + n))) n (by rw [ih.1, hlen]) (by omega)
      ih.2.1 (cstyle_le _)
    refine ⟨by rw [this.1, ih.1], this.2.1, ?_⟩
    rw [this.2.2, ih.2.2, sum_cstyle, loadVec_count, Nat.mul_succ, cnt_add, Nat.mul_add]

theorem vecLoop_spec (m : Mem) (i n r : Nat) : vecLoop m i n r = r + cnt m (32 * i) (32 * n) := by
  induction n using Nat.strongRecOn generalizing i r with
  | _ n ih =>
    unfold vecLoop
    by_cases h : n = 0
    · subst h; simp [cnt]
    · simp only [h, dite_false]
      generalize hit : (if n > 255 then 255 else n) = it
      have h1 : it ≤ 255 ∧ it ≤ n ∧ 0 < it := by subst hit; split <;> omega
      have hs := inner_spec m i it h1.1
      simp only at hs
      rw [ih (n - it) (by omega), horizontal_eq _ hs.1, hs.2.2]
      have : 32 * n = 32 * it + 32 * (n - it) := by omega
      rw [this, cnt_add, Nat.mul_add]; omega

theorem scalarLoop_spec (m : Mem) (stride : Int) (s n r : Nat) :
    scalarLoop m stride s n r = r +
      (List.range' s n).countP fun (i : Nat) => decide (m ((i : Int) * stride) ≠ 0#8) := by
  unfold scalarLoop
  generalize List.range' s n = l
  induction l generalizing r with
  | nil => rfl
  | cons a l ih =>
    simp only [List.foldl_cons, List.countP_cons, ih]
    by_cases h : m ((a : Int) * stride) = 0#8 <;> simp [h]; omega

/-- Is row `i` True? -/
def tr (m : Mem) (sb : Int) (i : Nat) : Bool := decide (m ((i : Int) * sb) ≠ 0#8)

/-- Number of True rows in `[s, s+n)`. -/
def trueIn (m : Mem) (sb : Int) (s n : Nat) : Nat := (List.range' s n).countP (tr m sb)

theorem trueIn_add (m : Mem) (sb : Int) (s a b : Nat) :
    trueIn m sb s (a + b) = trueIn m sb s a + trueIn m sb (s + a) b := by
  unfold trueIn
  rw [← List.countP_append]
  congr 1
  simp

theorem sumBooleanMask_eq (m : Mem) (len : Nat) (stride : Int) :
    sumBooleanMask m len stride = trueIn m stride 0 len := by
  unfold sumBooleanMask
  split
  · rename_i h; subst h
    simp only [scalarLoop_spec, vecLoop_spec, Nat.zero_add, Nat.mul_zero]
    have e : trueIn m 1 0 len = trueIn m 1 0 (32 * (len / 32)) +
        trueIn m 1 (32 * (len / 32)) (len - 32 * (len / 32)) := by
      have := trueIn_add m 1 0 (32 * (len / 32)) (len - 32 * (len / 32))
      simp only [Nat.zero_add] at this
      rw [← this]; congr 1; omega
    rw [e, Nat.mul_comm (len / 32) 32]
    congr 1
    · unfold cnt trueIn
      congr 1
      funext a
      simp [tr]
  · simp only [scalarLoop_spec, Nat.zero_add]; rfl

theorem trueIn_shift (m : Mem) (sb : Int) (s n : Nat) :
    trueIn (m.shift (s * sb)) sb 0 n = trueIn m sb s n := by
  unfold trueIn
  rw [List.range'_eq_map_range, List.range'_eq_map_range, List.countP_map, List.countP_map]
  congr 1
  funext a
  simp [tr, Mem.shift, Int.add_mul, Int.add_comm]

/-! ### Chunk counts -/

theorem view_eq (m : Mem) (sb : Int) (len : Nat) : view m sb len = (List.range len).map (tr m sb) := by
  unfold view; congr 1

theorem numTrue_view (m : Mem) (sb : Int) (len : Nat) :
    Spec.numTrue (view m sb len) = trueIn m sb 0 len := by
  rw [view_eq, Spec.numTrue, List.countP_map, trueIn, List.range_eq_range']; congr 1

theorem chunkSlots_eq {len : Nat} (h : big ≤ len) : chunkSlots len = blockLastGeneric len chunk := by
  unfold chunkSlots blockLastGeneric
  simp only [big, chunk] at *
  rw [if_pos (by omega)]

/-- Count of block `b`. -/
def blockCount (m : Mem) (sb : Int) (len b : Nat) : Nat :=
  trueIn m sb (chunk * b) (blockLen len chunk (blockLastGeneric len chunk) b)

theorem booleanCount_direct (m : Mem) (len : Nat) (sb : Int) :
    booleanCount m len sb none = [some (trueIn m sb 0 len)] := by
  have : 0 < chunkSlots len := by
    unfold chunkSlots; simp only [chunk]; split <;> omega
  obtain ⟨k, hk⟩ : ∃ k, chunkSlots len = k + 1 := ⟨chunkSlots len - 1, by omega⟩
  simp [booleanCount, countCallback, hk, List.replicate_succ, sumBooleanMask_eq]
  have := trueIn_shift m sb 0 len
  simpa using this

theorem booleanCount_pool (m : Mem) {len : Nat} (sb : Int) {calls : List Nat} (hb : big ≤ len)
    (h : calls.Perm (List.range (blockLastGeneric len chunk))) :
    booleanCount m len sb (some calls) =
      (List.range (blockLastGeneric len chunk)).map fun b => some (blockCount m sb len b) := by
  have hc : 0 < chunk := by decide
  simp only [booleanCount, countCallback, chunkSlots_eq hb, Nat.mul_div_cancel_left _ hc]
  have := foldl_set_perm (fun b => some (sumBooleanMask (m.shift ((chunk * b : Nat) * sb))
    (blockLen len chunk (blockLastGeneric len chunk) b) sb)) h
    (List.replicate (blockLastGeneric len chunk) none) (by simp)
  rw [this, List.take_of_length_le (by simp)]
  apply List.map_congr_left
  intro b _
  rw [sumBooleanMask_eq, trueIn_shift]; rfl

theorem sumChunks_map (l : List Nat) : sumChunks (l.map some) = some l.sum := by
  induction l with
  | nil => rfl
  | cons a l ih => simp [sumChunks, ih]

theorem prefixSums_map (t : Nat) (l : List Nat) :
    prefixSums t (l.map some) =
      some ((List.range l.length).map (fun b => t + (l.take b).sum), t + l.sum) := by
  induction l generalizing t with
  | nil => rfl
  | cons a l ih =>
    simp [prefixSums, ih, List.range_succ_eq_map, List.map_map, Function.comp_def, Nat.add_assoc]

theorem blockLen_full {len last b : Nat} (h : b + 1 < last) : blockLen len chunk last b = chunk := by
  unfold blockLen; rw [if_neg (by omega)]

/-- Sum of the counts of the first `b` blocks. -/
theorem sum_blockCount_prefix (m : Mem) (sb : Int) (len : Nat) :
    ∀ b, b < blockLastGeneric len chunk →
      ((List.range b).map (blockCount m sb len)).sum = trueIn m sb 0 (chunk * b) := by
  intro b
  induction b with
  | zero => intro _; simp [trueIn]
  | succ b ih =>
    intro h
    rw [List.range_succ, List.map_append, List.sum_append, ih (by omega), Nat.mul_succ, trueIn_add]
    simp [blockCount, blockLen_full h]

theorem sum_blockCount (m : Mem) (sb : Int) (len : Nat) :
    ((List.range (blockLastGeneric len chunk)).map (blockCount m sb len)).sum = trueIn m sb 0 len := by
  have := countP_flatMap' (tr m sb) (blockRows len chunk) (List.range (blockLastGeneric len chunk))
  rw [blocks_cover] at this
  rw [trueIn, ← List.range_eq_range', this]
  rfl

/-! ### Copies -/

/-- Reference behaviour of all copy loops on a list of mask values. -/
def emit (inc sv : Int) : List Bool → Ptrs → List Copy × Ptrs
  | [], p => ([], p)
  | true :: bs, p =>
    let r := emit inc sv bs ⟨p.vin + sv, p.vout + inc⟩
    ((p.vout, p.vin) :: r.1, r.2)
  | false :: bs, p => emit inc sv bs ⟨p.vin + sv, p.vout⟩

theorem emit_append (inc sv : Int) (a b : List Bool) (p : Ptrs) :
    emit inc sv (a ++ b) p =
      ((emit inc sv a p).1 ++ (emit inc sv b (emit inc sv a p).2).1,
        (emit inc sv b (emit inc sv a p).2).2) := by
  induction a generalizing p with
  | nil => rfl
  | cons x a ih => cases x <;> simp [emit, ih]

theorem emit_false (inc sv : Int) (n : Nat) (p : Ptrs) :
    emit inc sv (List.replicate n false) p = ([], ⟨p.vin + n * sv, p.vout⟩) := by
  induction n generalizing p with
  | zero => simp [emit]
  | succ n ih =>
    simp [List.replicate_succ, emit, ih, Int.add_mul]; omega

theorem elemLoop_eq (m : Mem) (sb inc sv : Int) (i n : Nat) (p : Ptrs) :
    elemLoop m sb inc sv i n p = emit inc sv ((List.range' i n).map (tr m sb)) p := by
  induction n generalizing i p with
  | zero => rfl
  | succ n ih =>
    simp only [elemLoop, List.range'_succ, List.map_cons, tr]
    by_cases h : m ((i : Int) * sb) = 0#8
    · simp [h, emit, ih]
    · simp [h, emit, ih]

theorem loadLE_lt (bs : List Byte) : loadLE bs < 256 ^ bs.length := by
  induction bs with
  | nil => simp [loadLE]
  | cons b bs ih =>
    simp only [loadLE, List.length_cons, Nat.pow_succ]
    have := b.isLt
    omega

theorem loadLE_eq_zero (bs : List Byte) : loadLE bs = 0 → ∀ b ∈ bs, b = 0#8 := by
  induction bs with
  | nil => simp
  | cons b bs ih =>
    intro h
    simp only [loadLE] at h
    intro c hc
    rcases List.mem_cons.1 hc with rfl | hc
    · exact BitVec.eq_of_toNat_eq (by simp; omega)
    · exact ih (by omega) c hc

theorem byteLoop_eq (itemSize sv : Int) (bs : List Byte) (p : Ptrs) :
    byteLoop itemSize sv bs.length (loadLE bs) p =
      emit itemSize sv (bs.map fun b => decide (b ≠ 0#8)) p := by
  induction bs generalizing p with
  | nil => rfl
  | cons b bs ih =>
    have h1 : loadLE (b :: bs) &&& 0xff = b.toNat := by
      have := Nat.and_two_pow_sub_one_eq_mod (loadLE (b :: bs)) 8
      simp only [loadLE] at *
      have hb := b.isLt
      rw [show (0xff : Nat) = 2 ^ 8 - 1 from rfl, this]; omega
    have h2 : loadLE (b :: bs) >>> 8 = loadLE bs := by
      rw [Nat.shiftRight_eq_div_pow]
      simp only [loadLE]
      have hb := b.isLt
      omega
    simp only [List.length_cons, byteLoop, h1, h2, ih, List.map_cons]
    by_cases h : b = 0#8
    · subst h; simp [emit]
    · have : b.toNat ≠ 0 := fun e => h (BitVec.eq_of_toNat_eq (by simpa using e))
      simp [h, this, emit]

theorem wordLoop_eq (m : Mem) (itemSize sv : Int) (i n : Nat) (p : Ptrs) :
    wordLoop m itemSize sv i n p = emit itemSize sv ((List.range' (8 * i) (8 * n)).map (tr m 1)) p := by
  induction n generalizing i p with
  | zero => rfl
  | succ n ih =>
    have hsplit : (List.range' (8 * i) (8 * (n + 1))).map (tr m 1) =
        ((List.range 8).map fun k => m ((8 * i + k : Nat) : Int)).map (fun b => decide (b ≠ 0#8)) ++
        (List.range' (8 * (i + 1)) (8 * n)).map (tr m 1) := by
      rw [Nat.mul_succ, Nat.add_comm (8 * n) 8, ← List.range'_append_1, List.map_append]
      congr 1
      · rw [List.range'_eq_map_range, List.map_map, List.map_map]
        apply List.map_congr_left
        intro a _
        simp [tr]
    simp only [wordLoop]
    generalize hbs : ((List.range 8).map fun k => m ((8 * i + k : Nat) : Int)) = bs at *
    have hlen : bs.length = 8 := by rw [← hbs]; simp
    rw [hsplit, emit_append]
    split
    · have := byteLoop_eq itemSize sv bs p
      rw [hlen] at this
      simp only [this, ih]
    · rename_i h0
      have hz := loadLE_eq_zero bs (by omega)
      have : bs.map (fun b => decide (b ≠ 0#8)) = List.replicate 8 false := by
        rw [List.eq_replicate_iff]
        refine ⟨by simp [hlen], ?_⟩
        intro x hx
        obtain ⟨b, hb, rfl⟩ := List.mem_map.1 hx
        simp [hz b hb]
      rw [this, emit_false, ih]; rfl

theorem range_map_shift (m : Mem) (sb : Int) (s i n : Nat) :
    (List.range' i n).map (tr (m.shift (s * sb)) sb) = (List.range' (s + i) n).map (tr m sb) := by
  rw [List.range'_eq_map_range, List.range'_eq_map_range, List.map_map, List.map_map]
  apply List.map_congr_left
  intro a _
  simp only [Function.comp, tr, Mem.shift]
  congr 3
  rw [← Int.add_mul]
  congr 2
  omega

theorem indexCallback_eq (m : Mem) (sb itemSize sv : Int) (start len off : Nat)
    (hinc : sb = 1 → tailInc itemSize sv = itemSize) :
    indexCallback m sb itemSize sv start len off =
      (emit itemSize sv ((List.range' start len).map (tr m sb)) ⟨start * sv, off * itemSize⟩).1 := by
  unfold indexCallback
  simp only
  split
  · rename_i h; subst h
    rw [hinc rfl, wordLoop_eq, elemLoop_eq]
    have h1 := range_map_shift m 1 start (8 * 0) (8 * (len / 8))
    have h2 := range_map_shift (m.shift (start * 1)) 1 (8 * (len / 8)) 0 (len &&& 7)
    rw [Int.mul_one ((8 * (len / 8) : Nat) : Int)] at h2
    rw [h2, h1, range_map_shift]
    have hand : len &&& 7 = len % 8 := Nat.and_two_pow_sub_one_eq_mod len 3
    have hlen : len = 8 * (len / 8) + (len &&& 7) := by rw [hand]; omega
    conv => rhs; rw [hlen, ← List.range'_append_1, List.map_append, emit_append]
    simp
  · rw [elemLoop_eq, range_map_shift]; simp

/-- Rank of row `r`: number of True rows before it. -/
def rank (m : Mem) (sb : Int) (r : Nat) : Nat := trueIn m sb 0 r

theorem rank_succ (m : Mem) (sb : Int) (r : Nat) :
    rank m sb (r + 1) = rank m sb r + (if tr m sb r then 1 else 0) := by
  unfold rank
  rw [trueIn_add]
  simp [trueIn, List.countP_cons]

theorem emit_rank (m : Mem) (sb itemSize sv : Int) (s n : Nat) :
    emit itemSize sv ((List.range' s n).map (tr m sb)) ⟨s * sv, rank m sb s * itemSize⟩ =
      (((List.range' s n).filter (tr m sb)).map fun (r : Nat) => ((rank m sb r : Int) * itemSize, (r : Int) * sv),
        ⟨(s + n : Nat) * sv, rank m sb (s + n) * itemSize⟩) := by
  induction n generalizing s with
  | zero => simp [emit]
  | succ n ih =>
    have ih := ih (s + 1)
    rw [rank_succ] at ih
    simp only [List.range'_succ, List.map_cons, List.filter_cons]
    cases h : tr m sb s with
    | true =>
      simp only [h, if_true, emit, List.map_cons] at ih ⊢
      have e1 : (s : Int) * sv + sv = ((s + 1 : Nat) : Int) * sv := by
        rw [Int.natCast_add, Int.add_mul]; simp
      have e2 : (rank m sb s : Int) * itemSize + itemSize = ((rank m sb s + 1 : Nat) : Int) * itemSize := by
        rw [Int.natCast_add, Int.add_mul]; simp
      rw [e1, e2, ih, show s + 1 + n = s + (n + 1) by omega]
    | false =>
      simp only [h, emit, Bool.false_eq_true, if_false, Nat.add_zero] at ih ⊢
      have e1 : (s : Int) * sv + sv = ((s + 1 : Nat) : Int) * sv := by
        rw [Int.natCast_add, Int.add_mul]; simp
      rw [e1, ih, show s + 1 + n = s + (n + 1) by omega]

/-! ### Assembling blocks -/

/-- Rows of block `b` starting at `chunk * b`. -/
theorem blockRows_eq (len b : Nat) : blockRows len chunk b =
    List.range' (chunk * b) (blockLen len chunk (blockLastGeneric len chunk) b) := rfl

theorem counts_cases (m : Mem) (len : Nat) (sb : Int) {workers : Nat} {nt : Bool}
    {par : Option (List Nat)} (h : ChunkSched workers len nt par) :
    (par = none ∧ booleanCount m len sb par = [trueIn m sb 0 len].map some) ∨
    (∃ calls, par = some calls ∧ big ≤ len ∧
      calls.Perm (List.range (blockLastGeneric len chunk)) ∧
      booleanCount m len sb par =
        ((List.range (blockLastGeneric len chunk)).map (blockCount m sb len)).map some) := by
  rcases h.cases with ⟨rfl, _⟩ | ⟨calls, rfl, hn, hp⟩
  · exact .inl ⟨rfl, booleanCount_direct m len sb⟩
  · have hb : big ≤ len := by
      have := mt Or.inl hn; omega
    refine .inr ⟨calls, rfl, hb, hp, ?_⟩
    rw [booleanCount_pool m sb hb hp, List.map_map]; rfl

theorem take_range_map {α : Type} (f : Nat → α) {b n : Nat} (h : b ≤ n) :
    ((List.range n).map f).take b = (List.range b).map f := by
  rw [← List.map_take, List.take_range, Nat.min_eq_left h]

theorem offsets (m : Mem) (sb : Int) (len b : Nat) (h : b < blockLastGeneric len chunk) :
    ((List.range (((List.range (blockLastGeneric len chunk)).map (blockCount m sb len))).length).map
      (fun b => 0 + ((((List.range (blockLastGeneric len chunk)).map (blockCount m sb len))).take b).sum))[b]?
      = some (rank m sb (chunk * b)) := by
  simp only [List.length_map, List.length_range, List.getElem?_map, List.getElem?_range h,
    Option.map_some, Nat.zero_add]
  rw [take_range_map _ (Nat.le_of_lt h), sum_blockCount_prefix m sb len b h]; rfl

/-- The copies in row order. -/
def rowCopies (m : Mem) (sb itemSize sv : Int) (rows : List Nat) : List Copy :=
  (rows.filter (tr m sb)).map fun (r : Nat) => ((rank m sb r : Int) * itemSize, (r : Int) * sv)

theorem indexCallback_rows (m : Mem) (sb itemSize sv : Int) (start len : Nat)
    (hinc : sb = 1 → tailInc itemSize sv = itemSize) :
    indexCallback m sb itemSize sv start len (rank m sb start) =
      rowCopies m sb itemSize sv (List.range' start len) := by
  rw [indexCallback_eq _ _ _ _ _ _ _ hinc, emit_rank]; rfl

theorem booleanIndex_perm (m : Mem) (len : Nat) (sb itemSize sv : Int) {workers : Nat} {nt : Bool}
    {par1 par2 : Option (List Nat)} (h1 : ChunkSched workers len nt par1)
    (h2 : ChunkSched workers len nt par2) (hinc : sb = 1 → tailInc itemSize sv = itemSize) :
    ∃ copies, booleanIndex m len sb itemSize sv par1 par2 = some (trueIn m sb 0 len, copies) ∧
      copies.Perm (rowCopies m sb itemSize sv (List.range len)) := by
  have hempty : ¬ trueIn m sb 0 len > 0 → rowCopies m sb itemSize sv (List.range len) = [] := by
    intro h0
    have : trueIn m sb 0 len = 0 := by omega
    rw [trueIn, ← List.range_eq_range', List.countP_eq_zero] at this
    unfold rowCopies
    rw [List.filter_eq_nil_iff.2 this]; rfl
  unfold booleanIndex
  rcases counts_cases m len sb h1 with ⟨e1, hc⟩ | ⟨calls1, e1, hb, hp1, hc⟩
  · have e2 := (sched_same h1 h2).1 e1
    subst e2
    rw [hc, prefixSums_map]
    simp only [List.sum_cons, List.sum_nil, Nat.zero_add, Nat.add_zero]
    split
    · refine ⟨_, rfl, ?_⟩
      have := indexCallback_rows m sb itemSize sv 0 len hinc
      rw [List.range_eq_range', ← this]
      simp [rank, trueIn]
    · rename_i h0
      rw [hempty h0]
      exact ⟨[], by simp; omega, List.Perm.refl _⟩
  · rcases h2.cases with ⟨e2, _⟩ | ⟨calls2, e2, _, hp2⟩
    · rw [(sched_same h1 h2).2 e2] at e1; simp at e1
    · subst e2
      rw [hc, prefixSums_map, sum_blockCount, Nat.zero_add]
      simp only
      split
      · have hm := mapM_some (fun b => (((List.range (((List.range (blockLastGeneric len chunk)).map
            (blockCount m sb len))).length).map (fun b => 0 + ((((List.range (blockLastGeneric len chunk)).map
            (blockCount m sb len))).take b).sum))[chunk * b / chunk]?).map fun o =>
              indexCallback m sb itemSize sv (chunk * b)
                (blockLen len chunk (blockLastGeneric len chunk) b) o)
            (fun b => rowCopies m sb itemSize sv (blockRows len chunk b)) calls2 (by
          intro b hb'
          have hlt := List.mem_range.1 (hp2.mem_iff.1 hb')
          simp only [Nat.mul_div_cancel_left _ (show 0 < chunk by decide)]
          rw [offsets m sb len b hlt, Option.map_some, indexCallback_rows _ _ _ _ _ _ hinc]; rfl)
        refine ⟨_, by rw [hm]; rfl, ?_⟩
        exact blocks_perm (rowCopies m sb itemSize sv) (by intro x y; simp [rowCopies]) rfl hp2
      · rename_i h0
        rw [hempty h0]
        exact ⟨[], by simp; omega, List.Perm.refl _⟩

/-! ### Fancy index -/

theorem fancyBlock_eq (m : Mem) (start len : Nat) :
    fancyBlock m start len (rank m 1 start) =
      ((List.range' start len).filter (tr m 1)).map fun r => (rank m 1 r, r) := by
  have gen : ∀ (n s : Nat) (acc : List (Nat × Nat)),
      (List.range' s n).foldl
        (fun (acc : List (Nat × Nat) × Nat) (i : Nat) =>
          if m (i : Int) ≠ 0#8 then (acc.1 ++ [(acc.2, i)], acc.2 + 1) else acc) (acc, rank m 1 s) =
      (acc ++ ((List.range' s n).filter (tr m 1)).map (fun r => (rank m 1 r, r)), rank m 1 (s + n)) := by
    intro n
    induction n with
    | zero => intro s acc; simp
    | succ n ih =>
      intro s acc
      have hs := rank_succ m 1 s
      simp only [List.range'_succ, List.foldl_cons, List.filter_cons]
      by_cases h : m (s : Int) = 0#8
      · have ht : tr m 1 s = false := by simp [tr, h]
        rw [ht] at hs
        simp only [h, ne_eq, not_true, if_false, ht, Bool.false_eq_true]
        have := ih (s + 1) acc
        rw [hs] at this
        simp only [Bool.false_eq_true, if_false, Nat.add_zero] at this
        rw [this, show s + 1 + n = s + (n + 1) by omega]
      · have ht : tr m 1 s = true := by simp [tr, h]
        rw [ht] at hs
        simp only [h, ne_eq, not_false_eq_true, if_true, ht, List.map_cons]
        have := ih (s + 1) (acc ++ [(rank m 1 s, s)])
        rw [hs] at this
        simp only [if_true] at this
        rw [this, show s + 1 + n = s + (n + 1) by omega]
        simp
  have := gen len start []
  unfold fancyBlock
  rw [this]; simp

theorem rank_le (m : Mem) (sb : Int) (r : Nat) : rank m sb r ≤ r := by
  unfold rank trueIn
  have := List.countP_le_length (p := tr m sb) (l := List.range' 0 r)
  simpa using this

/-- Position of row `r` in `both` mode. -/
def bothPos (m : Mem) (total r : Nat) : Nat :=
  if tr m 1 r then rank m 1 r else total + (r - rank m 1 r)

theorem fancyBothBlock_eq (m : Mem) (total start len : Nat) :
    fancyBothBlock m start len (rank m 1 start) (total + (start - rank m 1 start)) =
      (List.range' start len).map fun r => (bothPos m total r, r) := by
  have gen : ∀ (n s : Nat) (acc : List (Nat × Nat)),
      (List.range' s n).foldl
        (fun (acc : List (Nat × Nat) × Nat × Nat) (i : Nat) =>
          if m (i : Int) ≠ 0#8 then (acc.1 ++ [(acc.2.1, i)], acc.2.1 + 1, acc.2.2)
          else (acc.1 ++ [(acc.2.2, i)], acc.2.1, acc.2.2 + 1))
          (acc, rank m 1 s, total + (s - rank m 1 s)) =
      (acc ++ (List.range' s n).map (fun r => (bothPos m total r, r)), rank m 1 (s + n),
        total + (s + n - rank m 1 (s + n))) := by
    intro n
    induction n with
    | zero => intro s acc; simp
    | succ n ih =>
      intro s acc
      have hs := rank_succ m 1 s
      have hle := rank_le m 1 s
      simp only [List.range'_succ, List.foldl_cons, List.map_cons]
      by_cases h : m (s : Int) = 0#8
      · have ht : tr m 1 s = false := by simp [tr, h]
        rw [ht] at hs
        simp only [h, ne_eq, not_true, if_false, bothPos, ht, Bool.false_eq_true]
        have := ih (s + 1) (acc ++ [(total + (s - rank m 1 s), s)])
        rw [hs] at this
        simp only [Bool.false_eq_true, if_false, Nat.add_zero] at this
        rw [show total + (s - rank m 1 s) + 1 = total + (s + 1 - rank m 1 s) by omega, this,
          show s + 1 + n = s + (n + 1) by omega]
        simp [bothPos]
      · have ht : tr m 1 s = true := by simp [tr, h]
        rw [ht] at hs
        simp only [h, ne_eq, not_false_eq_true, if_true, bothPos, ht]
        have := ih (s + 1) (acc ++ [(rank m 1 s, s)])
        rw [hs] at this
        simp only [if_true] at this
        rw [show total + (s - rank m 1 s) = total + (s + 1 - (rank m 1 s + 1)) by omega, this,
          show s + 1 + n = s + (n + 1) by omega]
        simp [bothPos]
  have := gen len start []
  unfold fancyBothBlock
  rw [this]; simp

theorem booleanToFancy_perm (m : Mem) (len : Nat) {workers : Nat} {nt : Bool}
    {par1 par2 : Option (List Nat)} (h1 : ChunkSched workers len nt par1)
    (h2 : ChunkSched workers len nt par2) :
    (∃ w, booleanToFancy m len 1 false par1 par2 = some (trueIn m 1 0 len, w) ∧
      w.Perm (((List.range len).filter (tr m 1)).map fun r => (rank m 1 r, r))) ∧
    (∃ w, booleanToFancy m len 1 true par1 par2 = some (trueIn m 1 0 len, w) ∧
      w.Perm ((List.range len).map fun r => (bothPos m (trueIn m 1 0 len) r, r))) := by
  unfold booleanToFancy
  rcases counts_cases m len 1 h1 with ⟨e1, hc⟩ | ⟨calls1, e1, hb, hp1, hc⟩
  · have e2 := (sched_same h1 h2).1 e1
    subst e2
    simp only [hc]
    simp only [prefixSums_map]
    have r0 : rank m 1 0 = 0 := by simp [rank, trueIn]
    have f1 := fancyBlock_eq m 0 len
    have f2 := fancyBothBlock_eq m (trueIn m 1 0 len) 0 len
    rw [r0] at f1 f2
    constructor
    · refine ⟨_, by simp; rfl, ?_⟩
      rw [f1, List.range_eq_range']
    · refine ⟨_, by simp [falseOffs, sumChunks]; rfl, ?_⟩
      rw [List.range_eq_range', ← f2]
      simp
  · rcases h2.cases with ⟨e2, _⟩ | ⟨calls2, e2, _, hp2⟩
    · rw [(sched_same h1 h2).2 e2] at e1; simp at e1
    · subst e2
      simp only [hc]
      simp only [prefixSums_map, sum_blockCount, Nat.zero_add]
      constructor
      · have hm := mapM_some (fun b => 
            match ((List.range (((List.range (blockLastGeneric len chunk)).map
              (blockCount m 1 len))).length).map (fun b => 0 + ((((List.range (blockLastGeneric len chunk)).map
              (blockCount m 1 len))).take b).sum))[b]? with
            | none => none
            | some o => some (fancyBlock m (chunk * b) (blockLen len chunk (blockLastGeneric len chunk) b) o))
            (fun b => ((blockRows len chunk b).filter (tr m 1)).map fun r => (rank m 1 r, r)) calls2 (by
          intro b hb'
          have hlt := List.mem_range.1 (hp2.mem_iff.1 hb')
          rw [offsets m 1 len b hlt]
          simp only
          rw [fancyBlock_eq]; rfl)
        simp only [Nat.zero_add] at hm
        refine ⟨_, by
          simp only [Bool.false_eq_true, if_false]
          exact congrArg (Option.map fun ls => (trueIn m 1 0 len, ls.flatten)) hm, ?_⟩
        exact blocks_perm (fun rows => (rows.filter (tr m 1)).map fun r => (rank m 1 r, r))
          (by intro x y; simp) rfl hp2
      · have hm := mapM_some (fun b => 
            match ((List.range (((List.range (blockLastGeneric len chunk)).map
              (blockCount m 1 len))).length).map (fun b => 0 + ((((List.range (blockLastGeneric len chunk)).map
              (blockCount m 1 len))).take b).sum))[b]? with
            | none => none
            | some o => (falseOffs (((List.range (blockLastGeneric len chunk)).map (blockCount m 1 len)).map some) b).map
                fun f => fancyBothBlock m (chunk * b) (blockLen len chunk (blockLastGeneric len chunk) b) o
                  (trueIn m 1 0 len + f))
            (fun b => (blockRows len chunk b).map fun r => (bothPos m (trueIn m 1 0 len) r, r)) calls2 (by
          intro b hb'
          have hlt := List.mem_range.1 (hp2.mem_iff.1 hb')
          rw [offsets m 1 len b hlt]
          simp only [falseOffs]
          rw [← List.map_take, take_range_map _ (Nat.le_of_lt hlt), sumChunks_map,
            sum_blockCount_prefix m 1 len b hlt]
          simp only [Option.map_some]
          rw [show trueIn m 1 0 (chunk * b) = rank m 1 (chunk * b) from rfl, fancyBothBlock_eq]; rfl)
        simp only [Nat.zero_add] at hm
        refine ⟨_, by
          simp only [if_true]
          exact congrArg (Option.map fun ls => (trueIn m 1 0 len, ls.flatten)) hm, ?_⟩
        exact blocks_perm (fun rows => rows.map fun r => (bothPos m (trueIn m 1 0 len) r, r))
          (by intro x y; simp) rfl hp2

end Riptide.Mask
