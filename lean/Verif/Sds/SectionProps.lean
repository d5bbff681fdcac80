import Verif.Sds.Sections
import Verif.Sds.FileProps
/-! # C110: names and sections of a file are found again -/
namespace Riptide.Sds

/-! ## Names -/

theorem cstr_of : ∀ (s r : List Nat), (∀ b ∈ s, b ≠ 0) → cstr (s ++ 0 :: r) = some (s, r)
  | [], r, _ => by simp [cstr]
  | b :: s, r, h => by
    show (if b = 0 then some ([], s ++ 0 :: r) else match cstr (s ++ 0 :: r) with
      | some (s, r) => some (b :: s, r)
      | none => none) = _
    rw [if_neg (h b (by simp)), cstr_of s r (fun a ha => h a (by simp [ha]))]

theorem takeWhile_self : ∀ (s : List Nat), (∀ b ∈ s, b ≠ 0) → s.takeWhile (· != 0) = s
  | [], _ => rfl
  | b :: s, h => by
    have hb : (b != 0) = true := by simpa using h b (by simp)
    rw [List.takeWhile_cons, if_pos hb, takeWhile_self s (fun a ha => h a (by simp [ha]))]

/-- Names without zero bytes and their enums are read as they were given. -/
theorem names_back : ∀ (l : List (List Nat × Nat)), (∀ e ∈ l, (∀ b ∈ e.1, b ≠ 0) ∧ e.2 < 256) →
    makeNames l.length (buildNames l) = some l
  | [], _ => rfl
  | e :: l, h => by
    obtain ⟨s, v⟩ := e
    have h1 := h (s, v) (by simp)
    have h2 : buildNames ((s, v) :: l) = s ++ 0 :: (v :: buildNames l) := by
      show s.takeWhile (· != 0) ++ [0, v % 256] ++ buildNames l = _
      rw [takeWhile_self s h1.1, Nat.mod_eq_of_lt h1.2]
      simp
    rw [h2, List.length_cons, makeNames, cstr_of s _ h1.1]
    have ih := names_back l (fun a ha => h a (by simp [ha]))
    cases l with
    | nil => rfl
    | cons a l' =>
      have h3 : buildNames (a :: l') ≠ [] := by
        intro h0
        have := congrArg List.length h0
        simp [buildNames] at this
      simp only [if_neg h3, ih]

example : makeNames 2 (buildNames [([97, 98], 1), ([99], 33)]) = some [([97, 98], 1), ([99], 33)] := by decide

/-- A name with a zero byte is cut there. -/
theorem names_zero_wrong : makeNames 1 (buildNames [([97, 0, 98], 1)]) = some [([97], 1)] := by decide

theorem buildNames_length (l : List (List Nat × Nat)) (h : ∀ e ∈ l, ∀ b ∈ e.1, b ≠ 0) :
    (buildNames l).length = (l.map fun e => e.1.length + 2).sum := by
  induction l with
  | nil => rfl
  | cons e l ih =>
    have h1 : buildNames (e :: l) = e.1.takeWhile (· != 0) ++ [0, e.2 % 256] ++ buildNames l := rfl
    rw [h1, takeWhile_self e.1 (h e (by simp))]
    simp only [List.length_append, List.length_cons, List.length_nil, List.map_cons, List.sum_cons, ih (fun a ha => h a (by simp [ha]))]

/-- The memory for the names is enough exactly if the names have at most 298 bytes each on average, and eight more in all. -/
theorem names_room_iff (l : List (List Nat × Nat)) (h : ∀ e ∈ l, ∀ b ∈ e.1, b ≠ 0) :
    (buildNames l).length ≤ namesRoom l.length ↔ (l.map fun e => e.1.length).sum ≤ 298 * l.length + 8 := by
  rw [buildNames_length l h]
  have h1 : (l.map fun e => e.1.length + 2).sum = (l.map fun e => e.1.length).sum + 2 * l.length := by
    clear h
    induction l with
    | nil => rfl
    | cons e l ih => simp only [List.map_cons, List.sum_cons, List.length_cons, ih]; omega
  rw [h1]
  unfold namesRoom
  omega

/-- One long name is written behind the memory for the names. -/
theorem names_long_wrong : namesRoom 1 < (buildNames [(List.replicate 307 97, 1)]).length := by decide +kernel

/-! ## The directory -/

theorem dirBytes_cons (e : List Nat × Nat) (l : List (List Nat × Nat)) : dirBytes (e :: l) = e.1 ++ 0 :: (le 8 e.2 ++ dirBytes l) := by
  show e.1 ++ [0] ++ le 8 e.2 ++ dirBytes l = _
  simp

theorem dirBytes_length (l : List (List Nat × Nat)) : (dirBytes l).length = (l.map fun e => e.1.length + 9).sum := by
  induction l with
  | nil => rfl
  | cons e l ih =>
    rw [dirBytes_cons]
    simp only [List.length_append, List.length_cons, le_length, List.map_cons, List.sum_cons, ih]
    omega

/-- The directory is read as it was written. -/
theorem dir_back : ∀ (l : List (List Nat × Nat)), (∀ e ∈ l, (∀ b ∈ e.1, b ≠ 0) ∧ e.2 < 2 ^ 64) → makeDir l.length (dirBytes l) = some l
  | [], _ => rfl
  | e :: l, h => by
    have h1 := h e (by simp)
    rw [dirBytes_cons, List.length_cons, makeDir, cstr_of e.1 _ h1.1]
    have ih := dir_back l (fun a ha => h a (by simp [ha]))
    have h2 : ¬ (le 8 e.2 ++ dirBytes l).length < 8 := by rw [List.length_append, le_length]; omega
    simp only [if_neg h2]
    rw [List.drop_left' (le_length 8 e.2), List.take_left' (le_length 8 e.2), unle_le 8 e.2 (by rw [pow8]; exact h1.2)]
    cases l with
    | nil => rfl
    | cons a l' =>
      have h3 : dirBytes (a :: l') ≠ [] := by
        intro h0
        have := congrArg List.length h0
        rw [dirBytes_length] at this
        simp at this
      rw [if_neg h3, ih]

/-- The memory for the directory is enough for names of less than 64 bytes, which `CompressFile` asks for, and for all of the reserved
bytes. -/
theorem dir_room (l : List (List Nat × Nat)) (n : Nat) (hn : l.length = n + 1) (h : ∀ e ∈ l, e.1.length < 64) :
    (dirBytes l).length ≤ 72 * (n + 1) ∧ padTo (dirBytes l).length ≤ dirRoom n := by
  have h1 : (dirBytes l).length ≤ 72 * (n + 1) := by
    rw [dirBytes_length, ← hn]
    clear hn
    induction l with
    | nil => simp
    | cons e l ih =>
      have h2 := h e (by simp)
      have h3 := ih (fun a ha => h a (by simp [ha]))
      simp only [List.map_cons, List.sum_cons, List.length_cons]
      omega
  refine ⟨h1, ?_⟩
  unfold dirRoom padTo
  omega

example : ∃ l : List (List Nat × Nat), l = [([97], 0), ([98], 1024)] ∧ l.length = 1 + 1 ∧ (dirBytes l).length = 20 := ⟨_, rfl, by decide, by decide⟩

/-- One long name of a section is written behind the memory for the directory. -/
theorem dir_long_wrong : dirRoom 0 < (dirBytes [(List.replicate 1530 97, 0)]).length := by decide +kernel

example : ∀ e ∈ [([97], 0), ([98, 99], 3584)], e.1.length < 64 := by decide
example : dirBytes [([97], 0), ([98, 99], 3584)] = [97, 0, 0, 0, 0, 0, 0, 0, 0, 0, 98, 99, 0, 0, 14, 0, 0, 0, 0, 0, 0] := by decide
example : makeDir 2 (dirBytes [([97], 0), ([98, 99], 3584)]) = some [([97], 0), ([98, 99], 3584)] := by decide

/-! ## Lemmas about files -/

theorem readAt_has {f : List Nat} {p n : Nat} {l : List Nat} (h : readAt f p n = some l) : l.length = n ∧ HasAt f p l := by
  have h1 := h
  unfold readAt at h
  split at h
  · injection h with h
    have h2 : l.length = n := by rw [← h]; simp only [List.length_take, List.length_drop]; omega
    exact ⟨h2, by unfold HasAt; rw [h2]; exact h1⟩
  · nomatch h

theorem readAt_kept {f : List Nat} {p n : Nat} {l : List Nat} (h : readAt f p n = some l) (ws : List (Nat × List Nat))
    (hw : ∀ w ∈ ws, p + n ≤ w.1 ∨ w.1 + w.2.length ≤ p) : readAt (writes f ws) p n = some l := by
  obtain ⟨h1, h2⟩ := readAt_has h
  have h3 := writes_kept ws f h2 fun w hwm => .inr (by have := hw w hwm; simp only [h1]; exact this)
  unfold HasAt at h3
  rwa [h1] at h3

theorem readHeader_kept {f : List Nat} {p : Nat} {h : Header} (hr : readHeader f p = some h) (ws : List (Nat × List Nat))
    (hw : ∀ w ∈ ws, p + 512 ≤ w.1 ∨ w.1 + w.2.length ≤ p) : readHeader (writes f ws) p = some h := by
  unfold readHeader at hr ⊢
  cases hl : readAt f p 512 with
  | none => rw [hl] at hr; nomatch hr
  | some l => rw [readAt_kept hl ws hw]; rw [hl] at hr; exact hr

theorem readHeader_room {f : List Nat} {p : Nat} {h : Header} (hr : readHeader f p = some h) : p + 512 ≤ f.length := by
  unfold readHeader at hr
  cases hl : readAt f p 512 with
  | none => rw [hl] at hr; nomatch hr
  | some l =>
    obtain ⟨h1, h2⟩ := readAt_has hl
    rw [hasAt_iff] at h2
    omega

theorem pad_room {a n L : Nat} (ha : 512 ∣ a) (hL : 512 ∣ L) (h : a + n ≤ L) : a + padTo n ≤ L := by
  obtain ⟨k, rfl⟩ := ha
  obtain ⟨l, rfl⟩ := hL
  unfold padTo
  omega

theorem total_le (size : Nat → Nat) (base L : Nat) (hb : 512 ∣ base) (hL : 512 ∣ L) : ∀ (js : List Nat) (tot : Nat), js.Nodup → 512 ∣ tot →
    base + tot ≤ L → (∀ j ∈ js, size j = 0 ∨ base + allocAt size js tot j + size j ≤ L) → base + allocTotal size js tot ≤ L
  | [], _, _, _, h, _ => h
  | j :: js, tot, hn, ht, h, ha => by
    rw [allocTotal]
    have hn' := List.nodup_cons.mp hn
    refine total_le size base L hb hL js _ hn'.2 (Nat.dvd_add ht (padTo_dvd _)) ?_ ?_
    · rcases ha j (by simp) with h0 | h0
      · rw [h0]; show base + (tot + padTo 0) ≤ L
        have : padTo 0 = 0 := by decide
        omega
      · rw [allocAt, if_pos rfl] at h0
        have := pad_room (Nat.dvd_add hb ht) hL h0
        omega
    · intro k hk
      have h0 := ha k (by simp [hk])
      rw [allocAt, if_neg (by intro he; exact hn'.1 (he ▸ hk))] at h0
      exact h0

theorem allocTotal_sum (size : Nat → Nat) : ∀ (js : List Nat) (tot : Nat), allocTotal size js tot = tot + (js.map fun j => padTo (size j)).sum
  | [], _ => rfl
  | j :: js, tot => by
    rw [allocTotal, allocTotal_sum size js, List.map_cons, List.sum_cons]
    omega

/-- Where the file of an input ends, which does not depend on the order in which the threads took their places. -/
def Input.endAt (c : Codec) (x : Input) (fo : Nat) : Nat :=
  x.fileEnd c fo ((packMeta c x.zstd x.metaData).getD []).length (List.range x.arrays.length)

theorem endAt_eq {c : Codec} {x : Input} {m order : List Nat} (fo : Nat) (hm : packMeta c x.zstd x.metaData = some m)
    (ho : order.Perm (List.range x.arrays.length)) : x.fileEnd c fo m.length order = x.endAt c fo := by
  unfold Input.endAt Input.fileEnd
  rw [hm, allocTotal_sum, allocTotal_sum, (ho.map _).sum_nat]
  rfl

/-- The end of a file is not behind the end of its last written byte, padded. -/
theorem end_covered {c : Codec} {x : Input} {f : List Nat} {fo e : Nat} (hfo : 512 ∣ fo) (h : Stored c x f fo e) :
    Stored c x f fo (x.endAt c fo) ∧ x.endAt c fo ≤ e ∧ fo ≤ x.endAt c fo ∧ x.endAt c fo ≤ padTo f.length := by
  obtain ⟨m, order, s1, s2, s3, s4, st, sk, hm, ho, b1, b2, b3, b4, b5, b6, he, hE, hh, hn, hmd, hb, ha⟩ := h
  have hfe : fo ≤ x.fileEnd c fo m.length order := by
    show fo ≤ 512 + fo + padTo x.names.length + padTo m.length + padTo (x.arrays.length * 128) + _
    omega
  rw [← endAt_eq fo hm ho]
  refine ⟨⟨m, order, s1, s2, s3, s4, st, sk, hm, ho, b1, b2, b3, b4, b5, b6, Nat.le_refl _,
    Nat.lt_of_le_of_lt he hE, hh, hn, hmd, hb, ha⟩, he, hfe, ?_⟩
  have hL := padTo_dvd f.length
  have hfl := le_padTo f.length
  have p0 : padTo 0 = 0 := by decide
  have qq : ∀ {pos : Nat} {l : List Nat}, HasAt f pos l → l.length = 0 ∨ pos + l.length ≤ f.length := by
    intro pos l h
    exact (hasAt_iff.mp h).1
  have hh := qq hh
  have hn := qq hn
  have hmd := qq hmd
  have hb := qq hb
  rw [header_length] at hh
  rw [blocks_length] at hb
  have d1 : 512 ∣ 512 + fo := Nat.dvd_add (Nat.dvd_refl 512) hfo
  have d2 : 512 ∣ 512 + fo + padTo x.names.length := Nat.dvd_add d1 (padTo_dvd _)
  have d3 : 512 ∣ 512 + fo + padTo x.names.length + padTo m.length := Nat.dvd_add d2 (padTo_dvd _)
  have d4 : 512 ∣ 512 + fo + padTo x.names.length + padTo m.length + padTo (x.arrays.length * 128) := Nat.dvd_add d3 (padTo_dvd _)
  have e1 : 512 + fo ≤ padTo f.length := by omega
  have e2 : 512 + fo + padTo x.names.length ≤ padTo f.length := by
    rcases hn with h0 | h0
    · rw [h0]; omega
    · exact pad_room d1 hL (Nat.le_trans h0 hfl)
  have e3 : 512 + fo + padTo x.names.length + padTo m.length ≤ padTo f.length := by
    rcases hmd with h0 | h0
    · rw [h0]; omega
    · exact pad_room d2 hL (Nat.le_trans h0 hfl)
  have e4 : 512 + fo + padTo x.names.length + padTo m.length + padTo (x.arrays.length * 128) ≤ padTo f.length := by
    rcases hb with h0 | h0
    · rw [h0]; omega
    · exact pad_room d3 hL (Nat.le_trans h0 hfl)
  refine total_le (x.stored c) _ _ d4 hL order 0 (ho.nodup_iff.mpr List.nodup_range) (Nat.dvd_zero 512) e4 ?_
  intro j hj
  rcases qq (ha j (List.mem_range.mp (ho.mem_iff.mp hj))) with h0 | h0
  · exact .inl h0
  · exact .inr (Nat.le_trans h0 hfl)

/-- Other marks in the first header: the file holds the same. -/
theorem remark {c : Codec} {x : Input} (hx : x.Ok c) {f : List Nat} {e : Nat} {h : Header} (hs : Stored c x f 0 e)
    (hr : readHeader f 0 = some h) {s1 s2 s3 s4 k : Nat} (a1 : s1 < 2 ^ 64) (a2 : s2 < 2 ^ 64) (a3 : s3 < 2 ^ 64) (a4 : s4 < 2 ^ 64)
    (a6 : k < 2 ^ 16 ∨ k = h.stackType) :
    Stored c x (writeAt f 0 (h.marked s1 s2 s3 s4 h.stamp k).bytes) 0 e ∧
    readHeader (writeAt f 0 (h.marked s1 s2 s3 s4 h.stamp k).bytes) 0 = some (h.marked s1 s2 s3 s4 h.stamp k) := by
  obtain ⟨m, order, t1, t2, t3, t4, st, sk, hm, ho, b1, b2, b3, b4, b5, b6, he, hE, hh, hn, hmd, hb, ha⟩ := hs
  have hend : x.fileEnd c 0 m.length order < 2 ^ 64 := Nat.lt_of_le_of_lt he hE
  have hfit := header_fits hx ho (packMeta_length hm) b1 b2 b3 b4 b5 b6 hend
  have hrh := readHeader_of hh hfit rfl rfl
  have heq : h = (fullHeader c 0 x m.length order).marked t1 t2 t3 t4 st sk := by
    rw [hr] at hrh; injection hrh
  have heq2 : h.marked s1 s2 s3 s4 h.stamp k = (fullHeader c 0 x m.length order).marked s1 s2 s3 s4 st k := by
    rw [heq]; rfl
  have hk : k < 2 ^ 16 := by
    rcases a6 with a6 | a6
    · exact a6
    · rw [a6, heq]; exact b6
  rw [heq2]
  have hfit' := header_fits hx ho (packMeta_length hm) a1 a2 a3 a4 b5 hk hend
  have hself := writeAt_self f 0 ((fullHeader c 0 x m.length order).marked s1 s2 s3 s4 st k).bytes
  have hap : ∀ (p : Nat) (l : List Nat), 512 ≤ p → Apart (p, l) (0, ((fullHeader c 0 x m.length order).marked s1 s2 s3 s4 st k).bytes) := by
    intro p l hp
    refine .inr (.inr ?_)
    simp only [header_length]
    omega
  have kp : ∀ {p : Nat} {l : List Nat}, HasAt f p l → 512 ≤ p →
      HasAt (writeAt f 0 ((fullHeader c 0 x m.length order).marked s1 s2 s3 s4 st k).bytes) p l :=
    fun h0 hp => hasAt_writeAt (0, _) h0 (hap _ _ hp)
  refine ⟨⟨m, order, s1, s2, s3, s4, st, k, hm, ho, a1, a2, a3, a4, b5, hk, he, hE, hself, kp hn ?_, kp hmd ?_, kp hb ?_, ?_⟩,
    readHeader_of hself hfit' rfl rfl⟩
  · show 512 ≤ 512 + 0; omega
  · show 512 ≤ 512 + 0 + padTo x.names.length; omega
  · show 512 ≤ 512 + 0 + padTo x.names.length + padTo m.length; omega
  · intro i hi
    have h1 := (array_place c x 0 m.length ho hi).1
    refine kp (ha i hi) (Nat.le_trans ?_ h1)
    show 512 ≤ 512 + 0 + padTo x.names.length + padTo m.length + padTo (x.arrays.length * 128)
    omega

/-! ## Histories -/

/-- A section which was added: its name, where it starts, and what it holds. -/
structure Entry where
  name : List Nat
  off : Nat
  x : Input

/-- Where a section ends. -/
def Entry.fin (c : Codec) (s : Entry) : Nat := s.x.endAt c s.off

/-- What the directory must hold. -/
def Entry.dir (l : List Entry) : List (List Nat × Nat) := l.map fun s => (s.name, s.off)

/-- A section can be added: its name has no zero bytes, the threads take every array once, and the numbers have room. -/
structure Sec.Fine (c : Codec) (f : List Nat) (l : List Entry) (s : Sec) : Prop where
  name : ∀ b ∈ s.name, b ≠ 0
  ok : s.x.Ok c
  order : s.order.Perm (List.range s.x.arrays.length)
  worder : s.worder.Perm (List.range s.x.arrays.length)
  stamp : s.stamp < 2 ^ 64
  count : l.length + 1 < 2 ^ 64
  room : ∀ m, packMeta c s.x.zstd s.x.metaData = some m →
    s.x.fileEnd c (padTo f.length) m.length s.order + padTo (dirBytes (Entry.dir l ++ [(s.name, padTo f.length)])).length < 2 ^ 64

/-- What holds of files with sections.  The sections are stored, and the directory, if there is one, is apart from them. -/
structure Good (c : Codec) (f : List Nat) (l : List Entry) (h : Header) : Prop where
  header : readHeader f 0 = some h
  start : ∃ (s : Entry) (r : List Entry), l = s :: r ∧ s.off = 0 ∧ ∀ t ∈ r, 512 ≤ t.off
  name : ∀ s ∈ l, ∀ b ∈ s.name, b ≠ 0
  each : ∀ s ∈ l, s.x.Ok c ∧ Stored c s.x f s.off (s.fin c) ∧ s.off ≤ s.fin c ∧ s.fin c ≤ padTo f.length ∧
    (h.sectOffset + h.sectReserved ≤ s.off ∨ s.fin c ≤ h.sectOffset ∨ h.sectSize = 0)
  apart : l.Pairwise fun s t => s.fin c ≤ t.off
  aligned : ∀ s ∈ l, 512 ∣ s.off
  count : l.length < 2 ^ 64
  offRoom : h.sectOffset + h.sectReserved < 2 ^ 64
  dir : (h.sectSize = 0 ∧ h.sectReserved = 0 ∧ h.sectCount = 0 ∧ h.sectOffset = 0 ∧ Entry.dir l = [([48], 0)]) ∨
    (h.sectSize ≠ 0 ∧ h.sectCount = l.length ∧ h.sectSize = (dirBytes (Entry.dir l)).length ∧ HasAt f h.sectOffset (dirBytes (Entry.dir l)) ∧
      h.sectSize ≤ h.sectReserved ∧ h.sectOffset + h.sectReserved ≤ f.length ∧ 512 ≤ h.sectOffset)

theorem off_lt {c : Codec} {f : List Nat} {l : List Entry} {h : Header} (g : Good c f l h) :
    ∀ e ∈ Entry.dir l, (∀ b ∈ e.1, b ≠ 0) ∧ e.2 < 2 ^ 64 := by
  intro e he
  obtain ⟨s, hs, rfl⟩ := List.mem_map.mp he
  obtain ⟨_, h1, h2, _⟩ := g.each s hs
  obtain ⟨m, order, s1, s2, s3, s4, st, sk, hm, ho, b1, b2, b3, b4, b5, b6, he, hE, _⟩ := h1
  exact ⟨g.name s hs, Nat.lt_of_le_of_lt h2 hE⟩

theorem good_load {c : Codec} {f : List Nat} {l : List Entry} {h : Header} (g : Good c f l h) : loadDir f h = some (Entry.dir l) := by
  unfold loadDir
  rcases g.dir with ⟨h1, _, _, _, h2⟩ | ⟨h1, h2, h3, h4, _⟩
  · rw [if_pos h1, h2]
  · rw [if_neg h1]
    unfold HasAt at h4
    rw [← h3] at h4
    rw [h4]
    show makeDir h.sectCount (dirBytes (Entry.dir l)) = _
    have h5 : l.length = (Entry.dir l).length := by unfold Entry.dir; rw [List.length_map]
    rw [h2, h5]
    exact dir_back _ (off_lt g)

/-- Every section is read as it was written, all are found, and the directory holds their names. -/
theorem good_read {c : Codec} (hc : c.Lawful) {f : List Nat} {l : List Entry} {h : Header} (g : Good c f l h) :
    (∀ s ∈ l, readFile c f s.off = some s.x.out) ∧ loadDir f h = some (Entry.dir l) ∧ readAll c f = some (l.map fun s => some s.x.out) := by
  have h1 : ∀ s ∈ l, readFile c f s.off = some s.x.out := by
    intro s hs
    obtain ⟨hx, hst, _⟩ := g.each s hs
    exact stored_read hc hx hst
  refine ⟨h1, good_load g, ?_⟩
  unfold readAll
  rw [g.header]
  show (if 1 < h.sectCount then _ else _) = _
  split
  · rw [good_load g]
    show some ((Entry.dir l).map fun e => readFile c f e.2) = _
    unfold Entry.dir
    rw [List.map_map]
    exact congrArg some (List.map_congr_left h1)
  · next hcount =>
    obtain ⟨s, r, rfl, h0, _⟩ := g.start
    have hr : r = [] := by
      rcases g.dir with ⟨_, _, _, _, h2⟩ | ⟨_, h2, _⟩
      · have := congrArg List.length h2
        simp [Entry.dir] at this
        exact this
      · rw [h2] at hcount
        rw [← List.length_eq_zero_iff]
        simp only [List.length_cons] at hcount
        omega
    subst hr
    have h2 := h1 s (by simp)
    rw [h0] at h2
    rw [h2]
    rfl

theorem dirBlock_length (junk : Nat → Nat) (l : List (List Nat × Nat)) (r : Nat) (h : (dirBytes l).length ≤ r) :
    (dirBlock junk l r).length = r := by
  unfold dirBlock
  simp only [List.length_append, List.length_map, List.length_range]
  omega

theorem dirBytes_pos (l : List (List Nat × Nat)) (e : List Nat × Nat) : (dirBytes (l ++ [e])).length ≠ 0 := by
  rw [dirBytes_length]
  simp

theorem padTo_mono {a b : Nat} (h : a ≤ b) : padTo a ≤ padTo b := by unfold padTo; omega

theorem hasAt_front {f : List Nat} {p : Nat} {a b : List Nat} (h : HasAt f p (a ++ b)) : HasAt f p a := by
  rw [hasAt_getElem] at h ⊢
  intro k hk
  rw [h k (by rw [List.length_append]; omega), List.getElem?_append_left hk]

theorem writes_room (f : List Nat) (a b : List (Nat × List Nat)) (w : Nat × List Nat) (h : w.2 ≠ []) :
    w.1 + w.2.length ≤ (writes f (a ++ w :: b)).length := by
  rw [writes_append, writes_cons]
  have h1 := writes_length_ge b (writeAt (writes f a) w.1 w.2)
  rw [writeAt_length h] at h1
  omega

/-- The first section. -/
theorem first_good {c : Codec} {junk : Nat → Nat} {s : Sec} {f : List Nat} (hs : s.Fine c [] []) (h : addSection c junk [] s = some f) :
    ∃ h : Header, Good c f [⟨s.name, 0, s.x⟩] h := by
  unfold addSection at h
  split at h
  · nomatch h
  · next m hm =>
    rw [if_pos rfl] at h
    injection h with h
    have hroom := hs.room m hm
    have p0 : padTo ([] : List Nat).length = 0 := by decide
    rw [p0] at hroom
    have hD : dirBytes (Entry.dir [] ++ [(s.name, 0)]) = dirBytes [(s.name, 0)] := rfl
    rw [hD] at hroom
    have hpos : (dirBytes [(s.name, 0)]).length ≠ 0 := dirBytes_pos [] (s.name, 0)
    have hE : (fullHeader c 0 s.x m.length s.order).first + (fullHeader c 0 s.x m.length s.order).totalC =
      s.x.fileEnd c 0 m.length s.order := rfl
    unfold firstWrites at h
    dsimp only at h
    rw [hE] at h
    generalize hS : (dirBytes [(s.name, 0)]).length = S at h hroom hpos
    have hSp := le_padTo S
    have hE512 : 512 ≤ s.x.fileEnd c 0 m.length s.order := by
      show 512 ≤ 512 + 0 + padTo s.x.names.length + padTo m.length + padTo (s.x.arrays.length * 128) + _
      omega
    have hbl : (dirBlock junk [(s.name, 0)] (padTo S)).length = padTo S := dirBlock_length _ _ _ (by rw [hS]; exact hSp)
    have hst := writes_stored (c := c) (x := s.x) (fo := 0) (m := m) (order := s.order) (worder := s.worder)
      (s1 := S) (s2 := s.x.fileEnd c 0 m.length s.order) (s3 := 1) (s4 := padTo S) (st := s.stamp) (sk := 0) []
      [(s.x.fileEnd c 0 m.length s.order, dirBlock junk [(s.name, 0)] (padTo S))]
      (by intro w hw; rw [List.mem_singleton] at hw; subst hw; exact .inr (Nat.le_refl _))
      hm hs.order hs.worder (by omega) (by omega) (by decide) (by omega) hs.stamp (by decide) (by omega)
    unfold fileWrites at hst
    rw [h] at hst
    have hfit := header_fits hs.ok hs.order (packMeta_length hm) (s1 := S) (s2 := s.x.fileEnd c 0 m.length s.order) (s3 := 1) (s4 := padTo S)
      (st := s.stamp) (sk := 0) (by omega) (by omega) (by decide) (by omega) hs.stamp (by decide)
      (by omega : s.x.fileEnd c 0 m.length s.order < 2 ^ 64)
    generalize hH : (fullHeader c 0 s.x m.length s.order).marked S (s.x.fileEnd c 0 m.length s.order) 1 (padTo S) s.stamp 0 = H at *
    have hHb : H.blockOffset = (fillHeader 0 s.x m.length).blockOffset := by rw [← hH]; rfl
    have hin := writes_inside c 0 s.x m H hs.order (fun i hi => List.mem_range.mp (hs.worder.mem_iff.mp hi)) hHb
    have hend : ∀ w ∈ endWrites c 0 s.x m.length s.order H, 0 ≤ w.1 ∧ w.1 + w.2.length ≤ s.x.fileEnd c 0 m.length s.order := by
      intro w hw
      exact hin w (by unfold fileWrites; exact List.mem_append.mpr (.inr hw))
    have h1 : HasAt f 0 H.bytes := by
      rw [← h]
      unfold endWrites
      refine writes_has _ (0, H.bytes) _ ?_
      intro v hv
      rw [List.mem_singleton] at hv
      subst hv
      refine .inr (.inl ?_)
      simp only [header_length, hHb]
      show 0 + 512 ≤ 512 + 0 + padTo s.x.names.length + padTo m.length
      omega
    have h2 : readHeader f 0 = some H := readHeader_of h1 hfit (by rw [← hH]; rfl) (by rw [← hH]; rfl)
    have hd : HasAt f (s.x.fileEnd c 0 m.length s.order) (dirBytes [(s.name, 0)]) := by
      refine hasAt_front (b := (List.range (padTo S - (dirBytes [(s.name, 0)]).length)).map junk) ?_
      rw [← h, List.append_assoc]
      refine writes_has _ (s.x.fileEnd c 0 m.length s.order, dirBlock junk [(s.name, 0)] (padTo S)) _ ?_
      intro v hv
      exact .inr (.inr (hend v hv).2)
    have hlen : s.x.fileEnd c 0 m.length s.order + padTo S ≤ f.length := by
      have h3 := writes_room [] (startWrites 0 s.x m ++ arrayWrites c 0 s.x m.length s.order s.worder) (endWrites c 0 s.x m.length s.order H)
        (s.x.fileEnd c 0 m.length s.order, dirBlock junk [(s.name, 0)] (padTo S))
        (by intro h0; have := congrArg List.length h0; simp only [hbl, List.length_nil] at this; omega)
      simp only [hbl] at h3
      rw [← h, List.append_assoc]
      exact h3
    have g1 : H.sectSize = S := by rw [← hH]; rfl
    have g2 : H.sectOffset = s.x.fileEnd c 0 m.length s.order := by rw [← hH]; rfl
    have g3 : H.sectCount = 1 := by rw [← hH]; rfl
    have g4 : H.sectReserved = padTo S := by rw [← hH]; rfl
    refine ⟨H, h2, ⟨_, [], rfl, rfl, nofun⟩, ?_, ?_, List.pairwise_singleton _ _, ?_, (by decide : 1 < 2 ^ 64), by rw [g2, g4]; exact hroom, .inr ⟨?_, ?_, ?_, ?_, ?_, ?_, ?_⟩⟩
    · intro t ht
      rw [List.mem_singleton] at ht
      subst ht
      exact hs.name
    · intro t ht
      rw [List.mem_singleton] at ht
      subst ht
      obtain ⟨he1, he2, he3, he4⟩ := end_covered (Nat.dvd_zero 512) hst
      exact ⟨hs.ok, he1, he3, he4, .inr (.inl (by rw [g2]; exact he2))⟩
    · intro t ht
      rw [List.mem_singleton] at ht
      subst ht
      exact Nat.dvd_zero 512
    · rw [g1]; exact hpos
    · rw [g3]; rfl
    · rw [g1]; exact hS.symm
    · rw [g2]; exact hd
    · rw [g1, g4]; exact hSp
    · rw [g2, g4]; exact hlen
    · rw [g2]; exact hE512

/-- A file without sections. -/
theorem plain_good {c : Codec} {x : Input} {order worder : List Nat} {stamp : Nat} {f : List Nat} (hx : x.Ok c)
    (ho : order.Perm (List.range x.arrays.length)) (hw : worder.Perm (List.range x.arrays.length)) (hst : stamp < 2 ^ 64)
    (hroom : ∀ m, packMeta c x.zstd x.metaData = some m → x.fileEnd c 0 m.length order < 2 ^ 64)
    (h : writeFile c x order worder stamp = some f) : ∃ h : Header, Good c f [⟨[48], 0, x⟩] h := by
  unfold writeFile at h
  split at h
  · nomatch h
  · next m hm =>
    injection h with h
    have hs := writes_stored (c := c) (x := x) (fo := 0) (m := m) (order := order) (worder := worder)
      (s1 := 0) (s2 := 0) (s3 := 0) (s4 := 0) (st := stamp) (sk := 0) [] [] (by intro w hw; nomatch hw)
      hm ho hw (by decide) (by decide) (by decide) (by decide) hst (by decide) (hroom m hm)
    have hH : (fullHeader c 0 x m.length order).marked 0 0 0 0 stamp 0 = { fullHeader c 0 x m.length order with stamp := stamp } := rfl
    have hfit := header_fits hx ho (packMeta_length hm) (s1 := 0) (s2 := 0) (s3 := 0) (s4 := 0) (st := stamp) (sk := 0)
      (by decide) (by decide) (by decide) (by decide) hst (by decide) (hroom m hm)
    unfold fileWrites at hs
    rw [List.append_nil, hH] at hs
    rw [h] at hs
    rw [hH] at hfit
    have h1 : HasAt f 0 (Header.bytes { fullHeader c 0 x m.length order with stamp := stamp }) := by
      rw [← h]
      unfold endWrites
      refine writes_has _ (0, _) _ ?_
      intro v hv
      rw [List.mem_singleton] at hv
      subst hv
      refine .inr (.inl ?_)
      simp only [header_length]
      show 0 + 512 ≤ 512 + 0 + padTo x.names.length + padTo m.length
      omega
    refine ⟨_, readHeader_of h1 hfit rfl rfl, ⟨_, [], rfl, rfl, nofun⟩, ?_, ?_, List.pairwise_singleton _ _, ?_, (by decide : 1 < 2 ^ 64), (by decide : 0 + 0 < 2 ^ 64), .inl ⟨rfl, rfl, rfl, rfl, rfl⟩⟩
    · intro t ht
      rw [List.mem_singleton] at ht
      subst ht
      intro b hb
      rw [List.mem_singleton] at hb
      subst hb
      decide
    · intro t ht
      rw [List.mem_singleton] at ht
      subst ht
      obtain ⟨he1, he2, he3, he4⟩ := end_covered (Nat.dvd_zero 512) hs
      exact ⟨hx, he1, he3, he4, .inr (.inr rfl)⟩
    · intro t ht
      rw [List.mem_singleton] at ht
      subst ht
      exact Nat.dvd_zero 512

/-- How the first header changes: only its marks do, and the directory has room where they say. -/
theorem grown_marks {h : Header} {D : List (List Nat × Nat)} {last n flen fo : Nat} (hD : (dirBytes D).length ≠ 0)
    (hn : (if h.sectSize = 0 then 1 else h.sectCount) = n) (h512 : 512 ≤ fo) (hlast : fo ≤ last)
    (hdir : (h.sectReserved = 0 ∧ h.sectSize = 0) ∨ (h.sectOffset + h.sectReserved ≤ flen ∧ 512 ≤ h.sectOffset)) :
    ∃ o r : Nat, grown h D last = h.marked (dirBytes D).length o (n + 1) r h.stamp h.stackType ∧ (dirBytes D).length ≤ r ∧ 512 ≤ o ∧
      ((o = h.sectOffset ∧ r = h.sectReserved ∧ o + r ≤ flen) ∨ (o = last ∧ r = padTo (dirBytes D).length)) := by
  have hp := le_padTo (dirBytes D).length
  unfold grown
  rw [hn]
  dsimp only
  split
  · exact ⟨last, _, rfl, hp, by omega, .inr ⟨rfl, rfl⟩⟩
  · refine ⟨h.sectOffset, h.sectReserved, rfl, by omega, ?_, .inl ⟨rfl, rfl, ?_⟩⟩ <;> omega

/-- A further section. -/
theorem more_good {c : Codec} {junk : Nat → Nat} {f f' : List Nat} {l : List Entry} {s : Sec} {h : Header} (g : Good c f l h)
    (hs : s.Fine c f l) (ha : addSection c junk f s = some f') :
    ∃ h' : Header, Good c f' (l ++ [⟨s.name, padTo f.length, s.x⟩]) h' := by
  have h512 := readHeader_room g.header
  have hne : f ≠ [] := by intro h0; rw [h0] at h512; simp at h512
  unfold addSection at ha
  split at ha
  · nomatch ha
  · next m hm =>
    rw [if_neg hne, g.header] at ha
    dsimp only at ha
    have hroom := hs.room m hm
    have hflo := le_padTo f.length
    have hfod := padTo_dvd f.length
    generalize hfo : padTo f.length = fo at *
    have hE : (fullHeader c fo s.x m.length s.order).first + (fullHeader c fo s.x m.length s.order).totalC =
      s.x.fileEnd c fo m.length s.order := rfl
    have hfE : fo ≤ s.x.fileEnd c fo m.length s.order := by
      show fo ≤ 512 + fo + padTo s.x.names.length + padTo m.length + padTo (s.x.arrays.length * 128) + _
      omega
    rw [hE] at ha
    generalize hA : startWrites fo s.x m ++ arrayWrites c fo s.x m.length s.order s.worder = A at ha
    generalize hH : (fullHeader c fo s.x m.length s.order).marked 0 0 0 0 s.stamp 0 = H at ha
    have hHb : H.blockOffset = (fillHeader fo s.x m.length).blockOffset := by rw [← hH]; rfl
    have hin := writes_inside c fo s.x m H hs.order (fun i hi => List.mem_range.mp (hs.worder.mem_iff.mp hi)) hHb
    have hinA : ∀ w ∈ A, fo ≤ w.1 := by
      intro w hw
      exact (hin w (by unfold fileWrites; rw [hA, List.append_nil]; exact List.mem_append.mpr (.inl hw))).1
    generalize hZ : endWrites c fo s.x m.length s.order H = Z at ha
    have hinZ : ∀ w ∈ Z, fo ≤ w.1 ∧ w.1 + w.2.length ≤ s.x.fileEnd c fo m.length s.order := by
      intro w hw
      rw [← hZ] at hw
      exact hin w (by unfold fileWrites; exact List.mem_append.mpr (.inr hw))
    -- the file after the arrays is good, too
    have hr1 : readHeader (writes f A) 0 = some h :=
      readHeader_kept g.header A fun w hw => .inl (by have := hinA w hw; omega)
    have g1 : Good c (writes f A) l h := by
      refine ⟨hr1, g.start, g.name, ?_, g.apart, g.aligned, g.count, g.offRoom, ?_⟩
      · intro t ht
        obtain ⟨hx, e1, e2, e3, e4⟩ := g.each t ht
        refine ⟨hx, stored_keep e1 A fun w hw => .inr (by have := hinA w hw; omega), e2, ?_, e4⟩
        exact Nat.le_trans e3 (padTo_mono (writes_length_ge A f))
      · rcases g.dir with d | ⟨d1, d2, d3, d4, d5, d6, d7⟩
        · exact .inl d
        · refine .inr ⟨d1, d2, d3, ?_, d5, Nat.le_trans d6 (writes_length_ge A f), d7⟩
          refine writes_kept A f d4 fun w hw => .inr (.inl ?_)
          have := hinA w hw
          dsimp only
          omega
    rw [hr1] at ha
    dsimp only at ha
    rw [good_load g1] at ha
    dsimp only at ha
    have hD : Entry.dir l ++ [(s.name, fo)] = Entry.dir (l ++ [⟨s.name, fo, s.x⟩]) := by
      unfold Entry.dir; rw [List.map_append]; rfl
    have hpos := dirBytes_pos (Entry.dir l) (s.name, fo)
    have hcount : (if h.sectSize = 0 then 1 else h.sectCount) = l.length := by
      rcases g.dir with ⟨d1, d2, d3, _, d4⟩ | ⟨d1, d2, _⟩
      · rw [if_pos d1]
        have := congrArg List.length d4
        unfold Entry.dir at this
        rw [List.length_map] at this
        exact this.symm
      · rw [if_neg d1]; exact d2
    obtain ⟨o, r, hg1, hg2, hg3, hg4⟩ := grown_marks (last := s.x.fileEnd c fo m.length s.order) (flen := f.length) (fo := fo) hpos hcount
      (by omega) hfE (by
        rcases g.dir with ⟨d1, d2, _⟩ | ⟨_, _, _, _, _, d6, d7⟩
        · exact .inl ⟨d2, d1⟩
        · exact .inr ⟨d6, d7⟩)
    rw [hg1] at ha
    generalize hL : Entry.dir l ++ [(s.name, fo)] = D at *
    generalize hS : (dirBytes D).length = S at *
    have hor : o + r < 2 ^ 64 := by
      rcases hg4 with ⟨q1, q2, _⟩ | ⟨q1, q2⟩
      · rw [q1, q2]; exact g.offRoom
      · rw [q1, q2]; exact hroom
    have hlc := hs.count
    generalize hM : h.marked S o (l.length + 1) r h.stamp h.stackType = M at ha
    have m1 : M.sectSize = S := by rw [← hM]; rfl
    have m2 : M.sectOffset = o := by rw [← hM]; rfl
    have m3 : M.sectCount = l.length + 1 := by rw [← hM]; rfl
    have m4 : M.sectReserved = r := by rw [← hM]; rfl
    injection ha with ha
    unfold midWrites at ha
    rw [m2, m4] at ha
    have hbl : (dirBlock junk D r).length = r := dirBlock_length _ _ _ (by rw [hS]; exact hg2)
    have hMl := header_length M
    -- where the directory is
    have hdz : ∀ w ∈ Z, o + r ≤ w.1 ∨ w.1 + w.2.length ≤ o := by
      intro w hw
      have := hinZ w hw
      omega
    have hold : ∀ t ∈ l, ∀ e : Nat, e ≤ fo → (h.sectOffset + h.sectReserved ≤ t.off ∨ e ≤ h.sectOffset ∨ h.sectSize = 0) →
        o + r ≤ t.off ∨ e ≤ o := by
      intro t ht e he hd
      rcases hg4 with ⟨q1, q2, q3⟩ | ⟨q1, q2⟩
      · rcases hd with hd | hd | hd
        · left; omega
        · right; omega
        · exfalso
          rcases g.dir with ⟨d1, d2, _⟩ | ⟨d1, _⟩
          · omega
          · exact d1 hd
      · right; omega
    -- the file before the first header is written again
    have hr2 : readHeader (writes f (A ++ [(o, dirBlock junk D r)])) 0 = some h := by
      rw [writes_append]
      refine readHeader_kept hr1 _ fun w hw => .inl ?_
      rw [List.mem_singleton] at hw
      subst hw
      dsimp only
      omega
    have ha' : f' = writes (writeAt (writes f (A ++ [(o, dirBlock junk D r)])) 0 M.bytes) Z := by
      rw [← ha, writes_append (writes f A), writes_append f A]
      rfl
    have hst : ∀ t ∈ l, ∀ e : Nat, Stored c t.x f t.off e → e ≤ fo → (o + r ≤ t.off ∨ e ≤ o) →
        Stored c t.x (writes f (A ++ [(o, dirBlock junk D r)])) t.off e := by
      intro t ht e e1 e3 e4
      refine stored_keep e1 _ fun w hw => ?_
      rcases List.mem_append.mp hw with hw | hw
      · have := hinA w hw; right; omega
      · rw [List.mem_singleton] at hw
        subst hw
        simp only [hbl]
        exact e4
    obtain ⟨s0, rest, hl0, hoff0, hrest⟩ := g.start
    have hfirst : readHeader (writeAt (writes f (A ++ [(o, dirBlock junk D r)])) 0 M.bytes) 0 = some M ∧
        ∀ e : Nat, Stored c s0.x f s0.off e → e ≤ fo → (o + r ≤ s0.off ∨ e ≤ o) →
          Stored c s0.x (writeAt (writes f (A ++ [(o, dirBlock junk D r)])) 0 M.bytes) s0.off e := by
      have hmem : s0 ∈ l := by rw [hl0]; simp
      have key : ∀ e : Nat, Stored c s0.x f s0.off e → e ≤ fo → (o + r ≤ s0.off ∨ e ≤ o) →
          Stored c s0.x (writeAt (writes f (A ++ [(o, dirBlock junk D r)])) 0 M.bytes) s0.off e ∧
          readHeader (writeAt (writes f (A ++ [(o, dirBlock junk D r)])) 0 M.bytes) 0 = some M := by
        intro e e1 e3 e4
        have h0 := hst s0 hmem e e1 e3 e4
        rw [hoff0] at h0 ⊢
        have h1 := remark (g.each s0 hmem).1 h0 hr2 (s1 := S) (s2 := o) (s3 := l.length + 1) (s4 := r) (k := h.stackType)
          (by omega) (by omega) hlc (by omega) (.inr rfl)
        rw [hM] at h1
        exact h1
      refine ⟨?_, fun e e1 e3 e4 => (key e e1 e3 e4).1⟩
      obtain ⟨hx, e1, e2, e3, e4⟩ := g.each s0 hmem
      rw [hfo] at e3
      exact (key _ e1 e3 (hold s0 hmem _ e3 e4)).2
    have hH2 : readHeader f' 0 = some M := by
      rw [ha']
      exact readHeader_kept hfirst.1 Z fun w hw => .inl (by have := (hinZ w hw).1; omega)
    have hnew : Stored c s.x f' fo (s.x.fileEnd c fo m.length s.order) := by
      have h1 := writes_stored (c := c) (x := s.x) (fo := fo) (m := m) (order := s.order) (worder := s.worder)
        (s1 := 0) (s2 := 0) (s3 := 0) (s4 := 0) (st := s.stamp) (sk := 0) f [(o, dirBlock junk D r), (0, M.bytes)]
        (by
          intro w hw
          simp only [List.mem_cons, List.not_mem_nil, or_false] at hw
          rcases hw with rfl | rfl
          · simp only [hbl]; omega
          · simp only [hMl]; omega)
        hm hs.order hs.worder (by decide) (by decide) (by decide) (by decide) hs.stamp (by decide) (by omega)
      unfold fileWrites at h1
      rw [hA, hH, hZ, List.append_assoc A, writes_append f A, ha] at h1
      exact h1
    have hlen : padTo f.length ≤ padTo f'.length := by
      refine padTo_mono ?_
      rw [← ha]
      exact Nat.le_trans (writes_length_ge _ _) (writes_length_ge _ _)
    refine ⟨M, hH2, ?_, ?_, ?_, ?_, ?_, ?_, by rw [m2, m4]; exact hor, .inr ⟨by rw [m1]; exact hpos, ?_, ?_, ?_, ?_, ?_, ?_⟩⟩
    · refine ⟨s0, rest ++ [⟨s.name, fo, s.x⟩], by rw [hl0]; rfl, hoff0, ?_⟩
      intro t ht
      rcases List.mem_append.mp ht with ht | ht
      · exact hrest t ht
      · rw [List.mem_singleton] at ht
        subst ht
        show 512 ≤ fo
        omega
    · intro t ht
      rcases List.mem_append.mp ht with ht | ht
      · exact g.name t ht
      · rw [List.mem_singleton] at ht
        subst ht
        exact hs.name
    · intro t ht
      rcases List.mem_append.mp ht with ht | ht
      · obtain ⟨hx, e1, e2, e3, e4⟩ := g.each t ht
        have hd := hold t ht _ (by omega) e4
        refine ⟨hx, ?_, e2, Nat.le_trans e3 hlen, ?_⟩
        · rw [ha']
          refine stored_keep ?_ Z fun w hw => .inr (by have := (hinZ w hw).1; omega)
          rw [hl0] at ht
          rcases List.mem_cons.mp ht with rfl | ht'
          · exact hfirst.2 _ e1 (by omega) hd
          · have h5 := hst t (by rw [hl0]; exact ht) _ e1 (by omega) hd
            have h6 := hrest t ht'
            exact stored_keep h5 [(0, M.bytes)] fun w hw => by
              rw [List.mem_singleton] at hw
              subst hw
              left
              simp only [hMl]
              omega
        · rw [m2, m4]
          rcases hd with hd | hd
          · exact .inl hd
          · exact .inr (.inl hd)
      · rw [List.mem_singleton] at ht
        subst ht
        obtain ⟨he1, he2, he3, he4⟩ := end_covered hfod hnew
        refine ⟨hs.ok, he1, he3, he4, ?_⟩
        rw [m2, m4]
        show o + r ≤ fo ∨ s.x.endAt c fo ≤ o ∨ _
        omega
    · rw [List.pairwise_append]
      refine ⟨g.apart, List.pairwise_singleton _ _, ?_⟩
      intro t ht u hu
      rw [List.mem_singleton] at hu
      subst hu
      have := (g.each t ht).2.2.2.1
      rw [hfo] at this
      exact this
    · intro t ht
      rcases List.mem_append.mp ht with ht | ht
      · exact g.aligned t ht
      · rw [List.mem_singleton] at ht
        subst ht
        exact hfod
    · rw [List.length_append]; exact hlc
    · rw [m3, List.length_append]; rfl
    · rw [m1, ← hD]; exact hS.symm
    · rw [← hD, m2, ha', writes_append f A]
      have h1 : HasAt (writes f A ++ []) 0 [] := by rw [hasAt_getElem]; nofun
      refine hasAt_front (b := (List.range (r - (dirBytes D).length)).map junk) ?_
      show HasAt (writes (writes f A) ([] ++ (o, dirBlock junk D r) :: ((0, M.bytes) :: Z))) o (dirBlock junk D r)
      refine writes_has [] (o, dirBlock junk D r) _ ?_
      intro v hv
      rcases List.mem_cons.mp hv with rfl | hv
      · refine .inr (.inr ?_)
        simp only [hMl]
        omega
      · have := hdz v hv
        refine .inr ?_
        simp only [hbl]
        exact this
    · rw [m1, m4]; exact hg2
    · rw [m2, m4, ← ha]
      have h3 := writes_room (writes f A) [] ((0, M.bytes) :: Z) (o, dirBlock junk D r)
        (by intro h0; have := congrArg List.length h0; simp only [hbl, List.length_nil] at this; omega)
      simp only [hbl] at h3
      exact h3
    · rw [m2]; exact hg3

end Riptide.Sds
