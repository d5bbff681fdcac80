import Verif.Sds.Block
/-! # Lemmas on arrays in SDS files -/
namespace Riptide.Sds

theorem prod_foldl (l : List Nat) : ∀ a : Nat, l.foldl (· * ·) a = a * prod l := by
  induction l with
  | nil => intro a; simp [prod]
  | cons d ds ih =>
    intro a
    show ds.foldl (· * ·) (a * d) = a * ds.foldl (· * ·) (1 * d)
    rw [ih, ih]
    simp [Nat.mul_assoc]

theorem prod_cons (d : Nat) (ds : List Nat) : prod (d :: ds) = d * prod ds := by
  show ds.foldl (· * ·) (1 * d) = _
  rw [prod_foldl]; simp

theorem rowBytes_cons {d : Nat} (hd : 0 < d) (ds : List Nat) (item : Nat) : rowBytes (d :: ds) item = prod ds * item := by
  simp only [rowBytes, hd, if_true, prod_cons, Nat.mul_div_cancel_left _ hd]

theorem bands_cons {d : Nat} (hd : 0 < d) (ds : List Nat) (item bs : Nat) :
    bands (d :: ds) item bs = (prod ds * bs * item, (d + (bs - 1)) / bs) := by
  simp only [bands, hd, if_true, prod_cons, Nat.mul_div_cancel_left _ hd]

/-! ### Chunks -/

theorem pack_length (c : Codec) (avail : Nat) (l : List Nat) : (pack c avail l).length ≤ l.length := by
  unfold pack
  split
  · split <;> omega
  · omega

theorem pack_cases (c : Codec) (avail : Nat) (l : List Nat) :
    pack c avail l = l ∨ ∃ z, c.comp avail l = some z ∧ z.length < l.length ∧ pack c avail l = z := by
  unfold pack
  cases h : c.comp avail l with
  | none => exact .inl rfl
  | some z =>
    simp only
    split
    · exact .inr ⟨z, rfl, by assumption, rfl⟩
    · exact .inl rfl

theorem pack_chunk {c : Codec} (hc : c.Lawful) {avail : Nat} {l f : List Nat} {pos : Nat} (h : HasAt f pos (pack c avail l)) :
    readChunk c f pos (pack c avail l).length l.length = some l := by
  rcases pack_cases c avail l with h1 | ⟨z, hz, hl, h1⟩
  · rw [h1] at h ⊢
    unfold readChunk; rw [if_pos rfl]; exact h
  · rw [h1] at h ⊢
    have hr : readAt f pos z.length = some z := h
    unfold readChunk
    rw [if_neg (by omega), hr]
    simp [hc.back hz]

theorem pack_part {c : Codec} (hc : c.Lawful) {avail : Nat} {l f : List Nat} {pos : Nat} (h : HasAt f pos (pack c avail l)) :
    readPart c f pos (pack c avail l).length l.length = some l := by
  rcases pack_cases c avail l with h1 | ⟨z, hz, hl, h1⟩
  · rw [h1] at h ⊢
    unfold readPart; rw [if_pos rfl]; exact h
  · rw [h1] at h ⊢
    have hr : readAt f pos z.length = some z := h
    have hp := hc.part_back (n := l.length) (k := z.length) hz (Nat.le_refl _) (by omega)
    rw [List.take_length, List.take_length] at hp
    unfold readPart
    rw [if_neg (by omega), hr]
    simp [hp]

theorem pack_first {c : Codec} (hc : c.Lawful) {avail : Nat} {l f : List Nat} {pos : Nat} (h : HasAt f pos (pack c avail l)) {n : Nat}
    (hn : n ≤ l.length) : readFirst c f pos (pack c avail l).length l.length n = some (l.take n) := by
  rcases pack_cases c avail l with h1 | ⟨z, hz, hl, h1⟩
  · rw [h1] at h ⊢
    unfold readFirst; rw [if_pos rfl]; exact hasAt_take h hn
  · rw [h1] at h ⊢
    unfold readFirst
    rw [if_neg (by omega)]
    have hk : (if c.bound n + slack < z.length then c.bound n + slack else z.length) ≤ z.length := by split <;> omega
    have hm : min z.length (c.bound n + slack) ≤ (if c.bound n + slack < z.length then c.bound n + slack else z.length) := by
      split <;> omega
    rw [hasAt_take h hk]
    have hp := hc.part_back hz hn hm
    simp [hp]
    omega

/-! ### Bands -/

theorem bandLoop_length (c : Codec) (pb : Nat) : ∀ (n avail : Nat) (rest : List Nat), (bandLoop c pb n avail rest).length = n
  | 0, _, _ => rfl
  | 1, _, _ => rfl
  | n + 2, avail, rest => by
    simp only [bandLoop, List.length_cons, bandLoop_length c pb (n + 1)]

theorem bandLoop_size (c : Codec) (pb : Nat) : ∀ (n avail : Nat) (rest : List Nat),
    (bandLoop c pb n avail rest).flatten.length ≤ rest.length
  | 0, _, _ => by simp [bandLoop]
  | 1, avail, rest => by simp [bandLoop, pack_length]
  | n + 2, avail, rest => by
    have h1 := bandLoop_size c pb (n + 1) (avail - (pack c avail (rest.take pb)).length) (rest.drop pb)
    have h2 := pack_length c avail (rest.take pb)
    simp only [bandLoop, List.flatten_cons, List.length_append]
    simp only [List.length_drop, List.length_take] at h1 h2
    omega

theorem ends_length : ∀ (e : Nat) (zs : List (List Nat)), (ends e zs).length = zs.length
  | _, [] => rfl
  | e, z :: zs => by simp [ends, ends_length _ zs]

theorem ends_le : ∀ (e : Nat) (zs : List (List Nat)), ∀ x ∈ ends e zs, x ≤ e + zs.flatten.length
  | _, [], x, h => by simp [ends] at h
  | e, z :: zs, x, h => by
    simp only [ends, List.mem_cons] at h
    simp only [List.flatten_cons, List.length_append]
    rcases h with h | h
    · omega
    · have := ends_le _ zs x h; omega

/-- The bands of a file are read as what was written. -/
theorem readBands_ok {c : Codec} (hc : c.Lawful) (f : List Nat) (pb uSize : Nat) : ∀ (n avail : Nat) (rest : List Nat) (e pos done : Nat),
    HasAt f pos (bandLoop c pb (n + 1) avail rest).flatten → done + rest.length = uSize → n * pb ≤ rest.length →
    readBands c f pb uSize (ends e (bandLoop c pb (n + 1) avail rest)) e pos done = some rest
  | 0, avail, rest, e, pos, done, hf, hs, _ => by
    simp only [bandLoop, List.flatten_cons, List.flatten_nil, List.append_nil] at hf
    simp only [bandLoop, ends, readBands, Nat.add_sub_cancel_left]
    rw [show uSize - done = rest.length by omega]
    exact pack_chunk hc hf
  | n + 1, avail, rest, e, pos, done, hf, hs, hn => by
    have hn' : n * pb + pb ≤ rest.length := by rw [← Nat.succ_mul]; exact hn
    simp only [bandLoop, List.flatten_cons] at hf
    obtain ⟨h1, h2⟩ := hasAt_append.mp hf
    have hch := pack_chunk hc h1
    rw [List.length_take, Nat.min_eq_left (by omega)] at hch
    have ih := readBands_ok hc f pb uSize n (avail - (pack c avail (rest.take pb)).length) (rest.drop pb)
      (e + (pack c avail (rest.take pb)).length) (pos + (pack c avail (rest.take pb)).length) (done + pb) h2
      (by rw [List.length_drop]; omega) (by rw [List.length_drop]; omega)
    have hlen := bandLoop_length c pb (n + 1) (avail - (pack c avail (rest.take pb)).length) (rest.drop pb)
    simp only [bandLoop, ends]
    generalize hzs : bandLoop c pb (n + 1) (avail - (pack c avail (rest.take pb)).length) (rest.drop pb) = zs at ih hlen ⊢
    cases zs with
    | nil => simp at hlen
    | cons z zs =>
      simp only [ends] at ih
      simp only [ends, readBands, Nat.add_sub_cancel_left, hch, ih, List.take_append_drop]

/-! ### Masks -/

theorem section_eq (flt : Filter) (row n : Nat) : section_ flt row n = (flt.mask.drop row).take n := by
  unfold section_
  split
  · rw [List.take_of_length_le (by simp), List.take_of_length_le (by simp; omega)]
  · rfl

theorem sift_false (bpr : Nat) : ∀ (ms : List Bool) (l : List Nat), ms.count true = 0 → sift bpr ms l = []
  | [], _, _ => rfl
  | true :: ms, l, h => by simp at h
  | false :: ms, l, h => by
    have h1 : ms.count true = 0 := by simpa using h
    simp [sift, sift_false bpr ms _ h1]

theorem sift_true (bpr : Nat) : ∀ (ms : List Bool) (l : List Nat), ms.count true = ms.length → sift bpr ms l = l.take (bpr * ms.length)
  | [], _, _ => by simp [sift]
  | true :: ms, l, h => by
    have h1 : ms.count true = ms.length := by simpa using h
    simp only [sift, sift_true bpr ms _ h1, if_true, List.length_cons]
    rw [show bpr * (ms.length + 1) = bpr + bpr * ms.length by rw [Nat.mul_succ]; omega, List.take_add]
  | false :: ms, l, h => by
    have h1 := List.count_le_length (a := true) (l := ms)
    simp at h; omega

theorem sift_append (bpr : Nat) : ∀ (ms ns : List Bool) (l r : List Nat), l.length = bpr * ms.length →
    sift bpr (ms ++ ns) (l ++ r) = sift bpr ms l ++ sift bpr ns r
  | [], ns, l, r, h => by
    have : l = [] := List.eq_nil_of_length_eq_zero (by simpa using h)
    subst this; simp [sift]
  | m :: ms, ns, l, r, h => by
    rw [List.length_cons, Nat.mul_succ] at h
    simp only [List.cons_append, sift]
    rw [List.take_append_of_le_length (by omega), List.drop_append_of_le_length (by omega),
      sift_append bpr ms ns (l.drop bpr) r (by rw [List.length_drop]; omega), List.append_assoc]

/-- Rows behind the end of the mask do not matter. -/
theorem sift_short (bpr : Nat) : ∀ (ms : List Bool) (l : List Nat), sift bpr ms l = sift bpr ms (l.take (bpr * ms.length))
  | [], _ => rfl
  | m :: ms, l => by
    simp only [sift, List.length_cons]
    rw [List.take_take, show min bpr (bpr * (ms.length + 1)) = bpr by rw [Nat.mul_succ]; omega, List.drop_take,
      show bpr * (ms.length + 1) - bpr = bpr * ms.length by rw [Nat.mul_succ]; omega, ← sift_short bpr ms]

/-- One chunk with a mask. -/
theorem readRows_ok {c : Codec} (hc : c.Lawful) {avail : Nat} {l f : List Nat} {pos : Nat} (h : HasAt f pos (pack c avail l)) {bpr r : Nat}
    (hb : 0 < bpr) (hr : l.length = r * bpr) (mask : List Bool) (row : Nat) :
    readRows c f pos (pack c avail l).length l.length bpr ⟨mask, mask.count true⟩ row = some (sift bpr ((mask.drop row).take r) l) := by
  unfold readRows
  rw [if_neg (by omega)]
  split
  · rename_i hs
    simp only [special, decide_eq_true_eq] at hs
    obtain ⟨h0, h1, h2, h3⟩ := hs
    rw [pack_first hc h h3]
    have h4 : mask.length ≤ r := by
      rw [hr, Nat.mul_comm r bpr] at h3
      exact Nat.le_of_mul_le_mul_left h3 hb
    rw [h0, List.drop_zero, List.take_of_length_le h4, sift_true _ _ _ h2.symm]
  · split
    · rename_i hlt
      simp only at hlt
      rw [List.drop_of_length_le (by omega), List.take_nil]; rfl
    · split
      · rw [pack_part hc h]
        simp only [section_eq]
        rw [hr, Nat.mul_div_cancel _ hb]
      · rename_i hz
        have h0 : mask.count true = 0 := by simp only at hz; omega
        have h1 : ((mask.drop row).take r).count true = 0 := by
          have := ((List.take_sublist r (mask.drop row)).trans (List.drop_sublist row mask)).count_le true
          omega
        rw [sift_false _ _ _ h1]

theorem bandRows_ok {c : Codec} (hc : c.Lawful) (f : List Nat) (bs uSize bpr : Nat) (hb : 0 < bpr) (mask : List Bool) :
    ∀ (n avail : Nat) (rest : List Nat) (i e pos row r : Nat),
    HasAt f pos (bandLoop c (bs * bpr) (n + 1) avail rest).flatten → bs * bpr * i + rest.length = uSize → n * bs ≤ r →
    rest.length = r * bpr →
    bandRows c f (bs * bpr) uSize bpr ⟨mask, mask.count true⟩ (ends e (bandLoop c (bs * bpr) (n + 1) avail rest)) i e pos row =
      some (sift bpr ((mask.drop row).take r) rest)
  | 0, avail, rest, i, e, pos, row, r, hf, hs, _, hr => by
    simp only [bandLoop, List.flatten_cons, List.flatten_nil, List.append_nil] at hf
    simp only [bandLoop, ends, bandRows, Nat.add_sub_cancel_left, if_true]
    rw [if_neg (by omega)]
    split
    · rename_i hle
      rw [List.drop_of_length_le hle, List.take_nil]; rfl
    · rw [show uSize - bs * bpr * i = rest.length by omega]
      have hdiv : rest.length / bpr = r := by rw [hr, Nat.mul_div_cancel _ hb]
      rw [section_eq, hdiv]
      simp only
      split
      · rename_i d hd
        split at hd
        · rw [readRows_ok hc hf hb hr] at hd
          rw [← Option.some.inj hd, List.append_nil]
        · rename_i hz
          rw [← Option.some.inj hd, sift_false _ _ _ (by omega), List.append_nil]
      · rename_i hd
        split at hd
        · rw [readRows_ok hc hf hb hr] at hd; simp at hd
        · simp at hd
  | n + 1, avail, rest, i, e, pos, row, r, hf, hs, hn, hr => by
    have hn' : n * bs + bs ≤ r := by rw [← Nat.succ_mul]; exact hn
    have hbr : bs * bpr ≤ rest.length := by rw [hr]; exact Nat.mul_le_mul_right _ (by omega)
    simp only [bandLoop, List.flatten_cons] at hf
    obtain ⟨h1, h2⟩ := hasAt_append.mp hf
    have htl : (rest.take (bs * bpr)).length = bs * bpr := by rw [List.length_take, Nat.min_eq_left hbr]
    have hrow := readRows_ok hc h1 hb htl mask row
    rw [htl] at hrow
    have hrest : (rest.drop (bs * bpr)).length = (r - bs) * bpr := by rw [List.length_drop, hr, Nat.sub_mul]
    have hlen := bandLoop_length c (bs * bpr) (n + 1) (avail - (pack c avail (rest.take (bs * bpr))).length) (rest.drop (bs * bpr))
    have ih := bandRows_ok hc f bs uSize bpr hb mask n (avail - (pack c avail (rest.take (bs * bpr))).length) (rest.drop (bs * bpr)) (i + 1)
      (e + (pack c avail (rest.take (bs * bpr))).length) (pos + (pack c avail (rest.take (bs * bpr))).length)
      (row + ((mask.drop row).take bs).length) (r - bs) h2
      (by rw [Nat.mul_succ, List.length_drop]; omega) (by omega) hrest
    have hne : ends (e + (pack c avail (rest.take (bs * bpr))).length)
        (bandLoop c (bs * bpr) (n + 1) (avail - (pack c avail (rest.take (bs * bpr))).length) (rest.drop (bs * bpr))) ≠ [] := by
      intro h0
      have := congrArg List.length h0
      rw [ends_length, hlen] at this
      simp at this
    simp only [bandLoop, ends]
    generalize ends (e + (pack c avail (rest.take (bs * bpr))).length)
      (bandLoop c (bs * bpr) (n + 1) (avail - (pack c avail (rest.take (bs * bpr))).length) (rest.drop (bs * bpr))) = es at ih hne ⊢
    simp only [bandRows, Nat.add_sub_cancel_left]
    rw [if_neg (by omega), if_neg hne]
    split
    · rename_i hle
      rw [List.drop_of_length_le hle, List.take_nil]; rfl
    · rename_i hlt
      rw [section_eq, Nat.mul_div_cancel _ hb]
      simp only
      rw [ih]
      have hfirst : (if 0 < ((mask.drop row).take bs).count true then
          readRows c f pos (pack c avail (rest.take (bs * bpr))).length (bs * bpr) bpr ⟨mask, mask.count true⟩ row else some []) =
          some (sift bpr ((mask.drop row).take bs) (rest.take (bs * bpr))) := by
        split
        · exact hrow
        · rw [sift_false _ _ _ (by omega)]
      rw [hfirst]
      simp only
      congr 1
      by_cases hfull : row + bs ≤ mask.length
      · have hl : ((mask.drop row).take bs).length = bs := by rw [List.length_take, List.length_drop]; omega
        rw [hl]
        have hsplit : (mask.drop row).take r = (mask.drop row).take bs ++ (mask.drop (row + bs)).take (r - bs) := by
          rw [show r = bs + (r - bs) by omega, List.take_add, List.drop_drop, Nat.add_sub_cancel_left]
        have happ := sift_append bpr ((mask.drop row).take bs) ((mask.drop (row + bs)).take (r - bs)) (rest.take (bs * bpr))
          (rest.drop (bs * bpr)) (by rw [htl, hl, Nat.mul_comm])
        rw [hsplit, ← happ, List.take_append_drop]
      · have hl : ((mask.drop row).take bs).length = mask.length - row := by rw [List.length_take, List.length_drop]; omega
        rw [hl, List.drop_of_length_le (by omega : mask.length ≤ row + (mask.length - row)), List.take_nil]
        show _ ++ [] = _
        have hd : (mask.drop row).length = mask.length - row := List.length_drop
        have ht1 : (mask.drop row).take bs = mask.drop row := List.take_of_length_le (by omega)
        have ht2 : (mask.drop row).take r = mask.drop row := List.take_of_length_le (by omega)
        have hle : bpr * (mask.drop row).length ≤ bs * bpr := by
          rw [Nat.mul_comm bs bpr]; exact Nat.mul_le_mul_left _ (by omega)
        rw [List.append_nil, ht1, ht2, sift_short bpr (mask.drop row) rest, sift_short bpr (mask.drop row) (rest.take _),
          List.take_take, Nat.min_eq_left hle]

end Riptide.Sds
