import Verif.Sds.File
/-! # Lemmas about files -/
namespace Riptide.Sds

/-! ### Bytes at places -/

theorem hasAt_getElem {f : List Nat} {pos : Nat} {l : List Nat} : HasAt f pos l ↔ ∀ k : Nat, k < l.length → f[pos + k]? = l[k]? := by
  rw [hasAt_iff]
  constructor
  · rintro ⟨h1, h2⟩ k hk
    have h3 : ((f.drop pos).take l.length)[k]? = l[k]? := by rw [h2]
    rw [List.getElem?_take_of_lt hk, List.getElem?_drop] at h3
    exact h3
  · intro h
    have hlen : l.length = 0 ∨ pos + l.length ≤ f.length := by
      by_cases h0 : l.length = 0
      · exact .inl h0
      · refine .inr ?_
        have h1 := h (l.length - 1) (by omega)
        rw [List.getElem?_eq_getElem (l := l) (by omega)] at h1
        obtain ⟨h2, _⟩ := List.getElem?_eq_some_iff.mp h1
        omega
    refine ⟨hlen, ?_⟩
    apply List.ext_getElem?
    intro k
    by_cases hk : k < l.length
    · rw [List.getElem?_take_of_lt hk, List.getElem?_drop]; exact h k hk
    · rw [List.getElem?_eq_none (by simp only [List.length_take]; omega), List.getElem?_eq_none (by omega)]

theorem writeAt_length {f : List Nat} {pos : Nat} {l : List Nat} (h : l ≠ []) :
    (writeAt f pos l).length = max f.length (pos + l.length) := by
  unfold writeAt
  rw [if_neg h]
  simp only [List.length_append, List.length_take, List.length_replicate, List.length_drop]
  omega

theorem writeAt_length_ge (f : List Nat) (pos : Nat) (l : List Nat) : f.length ≤ (writeAt f pos l).length := by
  by_cases h : l = []
  · unfold writeAt; rw [if_pos h]; exact Nat.le_refl _
  · rw [writeAt_length h]; omega

theorem writeAt_self (f : List Nat) (pos : Nat) (l : List Nat) : HasAt (writeAt f pos l) pos l := by
  rw [hasAt_getElem]
  intro k hk
  have h : l ≠ [] := by intro h; rw [h] at hk; simp at hk
  unfold writeAt
  rw [if_neg h]
  have hl : (f.take pos ++ List.replicate (pos - f.length) 0).length = pos := by
    simp only [List.length_append, List.length_take, List.length_replicate]; omega
  rw [List.append_assoc, List.getElem?_append_right (by omega), hl, Nat.add_sub_cancel_left, List.getElem?_append_left hk]

/-- Outside of what is written nothing changes. -/
theorem writeAt_other {f : List Nat} {pos : Nat} {l : List Nat} {j : Nat} (hj : j < f.length) (h : j < pos ∨ pos + l.length ≤ j) :
    (writeAt f pos l)[j]? = f[j]? := by
  unfold writeAt
  split
  · rfl
  · have hl : (f.take pos ++ List.replicate (pos - f.length) 0).length = pos := by
      simp only [List.length_append, List.length_take, List.length_replicate]; omega
    rcases h with h | h
    · rw [List.append_assoc, List.getElem?_append_left (by omega), List.getElem?_append_left (by simp only [List.length_take]; omega),
        List.getElem?_take_of_lt h]
    · rw [List.getElem?_append_right (by rw [List.length_append, hl]; exact h), List.length_append, hl, List.getElem?_drop]
      congr 1; omega

/-- Two places do not overlap. -/
def Apart (v w : Nat × List Nat) : Prop := v.2 = [] ∨ v.1 + v.2.length ≤ w.1 ∨ w.1 + w.2.length ≤ v.1

theorem hasAt_writeAt {f : List Nat} {p : Nat} {m : List Nat} (w : Nat × List Nat) (h : HasAt f p m) (ha : Apart (p, m) w) :
    HasAt (writeAt f w.1 w.2) p m := by
  rw [hasAt_getElem] at h ⊢
  intro k hk
  rw [← h k hk]
  have h1 := h k hk
  rw [List.getElem?_eq_getElem (l := m) hk] at h1
  obtain ⟨h2, _⟩ := List.getElem?_eq_some_iff.mp h1
  refine writeAt_other h2 ?_
  rcases ha with ha | ha | ha
  · simp only at ha; rw [ha] at hk; simp at hk
  · simp only at ha; omega
  · simp only at ha; omega

theorem writes_nil (f : List Nat) : writes f [] = f := rfl

theorem writes_cons (f : List Nat) (w : Nat × List Nat) (ws : List (Nat × List Nat)) : writes f (w :: ws) = writes (writeAt f w.1 w.2) ws := rfl

theorem writes_append (f : List Nat) (a b : List (Nat × List Nat)) : writes f (a ++ b) = writes (writes f a) b := by
  unfold writes; rw [List.foldl_append]

theorem writes_length_ge : ∀ (ws : List (Nat × List Nat)) (f : List Nat), f.length ≤ (writes f ws).length
  | [], _ => Nat.le_refl _
  | w :: ws, f => Nat.le_trans (writeAt_length_ge f w.1 w.2) (writes_length_ge ws _)

theorem writes_kept {p : Nat} {m : List Nat} : ∀ (ws : List (Nat × List Nat)) (f : List Nat), HasAt f p m → (∀ w ∈ ws, Apart (p, m) w) →
    HasAt (writes f ws) p m
  | [], _, h, _ => h
  | w :: ws, f, h, ha => writes_kept ws _ (hasAt_writeAt w h (ha w (by simp))) (fun v hv => ha v (by simp [hv]))

/-- What is written stays if nothing is written over it later. -/
theorem writes_has {f : List Nat} (a : List (Nat × List Nat)) (w : Nat × List Nat) (b : List (Nat × List Nat))
    (h : ∀ v ∈ b, Apart w v) : HasAt (writes f (a ++ w :: b)) w.1 w.2 := by
  rw [writes_append, writes_cons]
  exact writes_kept b _ (writeAt_self _ _ _) h

/-! ### Structures -/

theorem enc_length : ∀ l : List (Nat × Nat), (enc l).length = (l.map Prod.fst).sum
  | [] => rfl
  | (w, v) :: l => by rw [enc, List.length_append, le_length, enc_length l]; rfl

theorem dec_enc (r : List Nat) : ∀ l : List (Nat × Nat), (∀ p ∈ l, p.2 < 256 ^ p.1) → dec (l.map Prod.fst) (enc l ++ r) = l.map Prod.snd
  | [], _ => rfl
  | (w, v) :: l, h => by
    have h1 : unle (le w v) = v := unle_le w v (h (w, v) (by simp))
    show unle ((enc ((w, v) :: l) ++ r).take w) :: dec (l.map Prod.fst) ((enc ((w, v) :: l) ++ r).drop w) = v :: l.map Prod.snd
    rw [enc, List.append_assoc, List.take_left' (le_length w v), List.drop_left' (le_length w v), h1,
      dec_enc r l (fun p hp => h p (by simp [hp]))]

/-- All members have room. -/
def Header.Fits (h : Header) : Prop := ∀ p ∈ h.members, p.2 < 256 ^ p.1

theorem header_length (h : Header) : h.bytes.length = 512 := by
  have h1 : h.members.map Prod.fst = headerWidths := rfl
  exact (enc_length h.members).trans ((congrArg List.sum h1).trans (by decide))

theorem readHeader_of {f : List Nat} {pos : Nat} {h : Header} (hf : HasAt f pos h.bytes) (hh : h.Fits) (hm : h.magic = sdsMagic)
    (hv : h.version = 4) : readHeader f pos = some h := by
  have h1 : readAt f pos 512 = some h.bytes := by have := hf; unfold HasAt at this; rwa [header_length] at this
  unfold readHeader
  rw [h1]
  have h2 : dec headerWidths h.bytes = h.members.map Prod.snd := by
    have := dec_enc [] h.members hh
    rw [List.append_nil] at this
    exact this
  have h3 : Header.ofVals (dec headerWidths h.bytes) = h := by rw [h2]; rfl
  show (if (Header.ofVals (dec headerWidths h.bytes)).magic = sdsMagic ∧ (Header.ofVals (dec headerWidths h.bytes)).version = 4 then
    some (Header.ofVals (dec headerWidths h.bytes)) else none) = some h
  rw [h3, if_pos ⟨hm, hv⟩]

/-- All members of a block have room, and there are as many strides as dimensions. -/
structure XBlk.Fits (b : XBlk) : Prop where
  dims : b.blk.dims.length ≤ 5
  strides : b.strides.length = b.blk.dims.length
  room : ∀ p ∈ b.members, p.2 < 256 ^ p.1

theorem block_length (b : XBlk) : (enc b.members).length = 128 := by
  have h1 : b.members.map Prod.fst = blockWidths := rfl
  exact (enc_length b.members).trans ((congrArg List.sum h1).trans (by decide))

theorem five_take {l : List Nat} (h : l.length ≤ 5) :
    [l.getD 0 0, l.getD 1 0, l.getD 2 0, l.getD 3 0, l.getD 4 0].take l.length = l := by
  rcases l with _ | ⟨a, _ | ⟨b, _ | ⟨c, _ | ⟨d, _ | ⟨e, _ | ⟨g, l⟩⟩⟩⟩⟩⟩ <;> first | rfl | (simp at h)

theorem block_back {b : XBlk} (hb : b.Fits) : XBlk.ofVals (dec blockWidths (enc b.members)) = b := by
  have h2 : dec blockWidths (enc b.members) = b.members.map Prod.snd := by
    have := dec_enc [] b.members hb.room
    rw [List.append_nil] at this
    exact this
  rw [h2]
  obtain ⟨⟨dims, item, cs, us, off, bc, bs⟩, dt, fl, st⟩ := b
  have h3 : [dims.getD 0 0, dims.getD 1 0, dims.getD 2 0, dims.getD 3 0, dims.getD 4 0].take dims.length = dims := five_take hb.dims
  have h4 : [st.getD 0 0, st.getD 1 0, st.getD 2 0, st.getD 3 0, st.getD 4 0].take dims.length = st := by
    have h5 : st.length = dims.length := hb.strides
    have h6 : dims.length ≤ 5 := hb.dims
    have := five_take (l := st) (by omega)
    rwa [h5] at this
  show XBlk.mk (Blk.mk ([dims.getD 0 0, dims.getD 1 0, dims.getD 2 0, dims.getD 3 0, dims.getD 4 0].take dims.length) item cs us off bc bs)
    dt fl ([st.getD 0 0, st.getD 1 0, st.getD 2 0, st.getD 3 0, st.getD 4 0].take dims.length) = _
  rw [h3, h4]

theorem readBlocks_of : ∀ l : List XBlk, (∀ b ∈ l, b.Fits) → readBlocks l.length (l.flatMap fun b => enc b.members) = l
  | [], _ => rfl
  | b :: l, h => by
    have h1 : ((b :: l).flatMap fun b => enc b.members) = enc b.members ++ l.flatMap fun b => enc b.members := rfl
    rw [h1]
    show XBlk.ofVals (dec blockWidths ((enc b.members ++ _).take 128)) :: readBlocks l.length ((enc b.members ++ _).drop 128) = b :: l
    rw [List.take_left' (block_length b), List.drop_left' (block_length b), block_back (h b (by simp)),
      readBlocks_of l (fun a ha => h a (by simp [ha]))]

/-! ### Offsets -/

theorem le_padTo (n : Nat) : n ≤ padTo n := by unfold padTo; omega

theorem allocAt_ge (size : Nat → Nat) : ∀ (js : List Nat) (tot i : Nat), tot ≤ allocAt size js tot i
  | [], tot, _ => Nat.le_refl tot
  | j :: js, tot, i => by
    rw [allocAt]
    split
    · exact Nat.le_refl tot
    · exact Nat.le_trans (Nat.le_add_right _ _) (allocAt_ge size js _ i)

theorem allocTotal_ge (size : Nat → Nat) : ∀ (js : List Nat) (tot : Nat), tot ≤ allocTotal size js tot
  | [], tot => Nat.le_refl tot
  | _ :: js, _ => Nat.le_trans (Nat.le_add_right _ _) (allocTotal_ge size js _)

theorem allocAt_end (size : Nat → Nat) : ∀ (js : List Nat) (tot i : Nat), i ∈ js →
    allocAt size js tot i + padTo (size i) ≤ allocTotal size js tot
  | j :: js, tot, i, h => by
    rw [allocAt, allocTotal]
    split
    · next he => rw [he]; exact allocTotal_ge size js _
    · next hne =>
      rcases List.mem_cons.mp h with h | h
      · exact absurd h hne
      · exact allocAt_end size js _ i h

/-- Whatever the order in which offsets are taken, the arrays do not overlap. -/
theorem allocAt_apart (size : Nat → Nat) : ∀ (js : List Nat) (tot i k : Nat), i ∈ js → k ∈ js → i ≠ k →
    allocAt size js tot i + padTo (size i) ≤ allocAt size js tot k ∨ allocAt size js tot k + padTo (size k) ≤ allocAt size js tot i
  | j :: js, tot, i, k, hi, hk, hne => by
    rw [allocAt, allocAt]
    by_cases h1 : i = j
    · rw [if_pos h1, if_neg (by omega)]
      exact .inl (by rw [h1]; exact allocAt_ge size js _ k)
    · rw [if_neg h1]
      by_cases h2 : k = j
      · rw [if_pos h2]
        exact .inr (by rw [h2]; exact allocAt_ge size js _ i)
      · rw [if_neg h2]
        exact allocAt_apart size js _ i k ((List.mem_cons.mp hi).resolve_left h1) ((List.mem_cons.mp hk).resolve_left h2) hne

end Riptide.Sds
