import Verif.Sds.Concat
import Verif.Sds.SectionProps
/-! # C111: the concatenation of files holds all their sections -/
namespace Riptide.Sds

/-! ## Copies -/

theorem copy_inside (B : Nat) : ∀ (k pos : Nat) (l : List Nat), ∀ w ∈ copyLoop B k pos l, pos ≤ w.1 ∧ w.1 + w.2.length ≤ pos + l.length
  | 0, _, _ => nofun
  | k + 1, pos, l => by
    intro w hw
    rw [copyLoop] at hw
    split at hw
    · nomatch hw
    · have h1 : (l.take B).length + (l.drop B).length = l.length := by
        rw [← List.length_append, List.take_append_drop]
      rcases List.mem_cons.mp hw with rfl | hw
      · dsimp only; omega
      · have := copy_inside B k _ _ w hw
        omega

/-- The loop copies all bytes. -/
theorem copy_has (B : Nat) (hB : 0 < B) : ∀ (k pos : Nat) (l f : List Nat), l.length ≤ k → HasAt (writes f (copyLoop B k pos l)) pos l
  | 0, pos, l, f, h => by
    have : l = [] := List.length_eq_zero_iff.mp (by omega)
    subst this
    rw [hasAt_getElem]
    nofun
  | k + 1, pos, l, f, h => by
    rw [copyLoop]
    split
    · next h0 => subst h0; rw [hasAt_getElem]; nofun
    · next h0 =>
      have hl : 0 < l.length := List.length_pos_iff.mpr h0
      have h1 : (l.take B).length + (l.drop B).length = l.length := by
        rw [← List.length_append, List.take_append_drop]
      have h2 : (l.drop B).length ≤ k := by rw [List.length_drop]; omega
      have h3 : HasAt (writes f ((pos, l.take B) :: copyLoop B k (pos + (l.take B).length) (l.drop B))) pos (l.take B ++ l.drop B) := by
        rw [hasAt_append]
        refine ⟨?_, ?_⟩
        · refine writes_has [] (pos, l.take B) _ ?_
          intro v hv
          have := copy_inside B k _ _ v hv
          exact .inr (.inl this.1)
        · rw [writes_cons]
          exact copy_has B hB k _ _ _ h2
      rw [List.take_append_drop] at h3
      exact h3

theorem hasAt_sub {f g : List Nat} {F p : Nat} {q : List Nat} (hg : HasAt g (F + 512) (f.drop 512)) (hq : HasAt f p q) (hp : 512 ≤ p) :
    HasAt g (F + p) q := by
  rw [hasAt_getElem] at hg hq ⊢
  intro k hk
  have h1 := hq k hk
  have hlt : p + k < f.length := by
    rw [List.getElem?_eq_getElem hk] at h1
    exact (List.getElem?_eq_some_iff.mp h1).1
  have h2 := hg (p - 512 + k) (by rw [List.length_drop]; omega)
  rw [List.getElem?_drop] at h2
  rw [← h1, show F + p + k = F + 512 + (p - 512 + k) by omega, h2]
  congr 1
  omega

/-! ## Moved headers and blocks -/

theorem enc_append : ∀ a b : List (Nat × Nat), enc (a ++ b) = enc a ++ enc b
  | [], _ => rfl
  | (w, v) :: a, b => by
    show le w v ++ enc (a ++ b) = le w v ++ enc a ++ enc b
    rw [enc_append a b, List.append_assoc]

/-- A block which is elsewhere. -/
def XBlk.move (b : XBlk) (F : Nat) : XBlk := { b with blk := { b.blk with offset := b.blk.offset + F } }

theorem block_move (F n : Nat) (b : XBlk) (r : List Nat) (hb : b.blk.offset < 2 ^ 64) :
    moveBlocks F (n + 1) (enc b.members ++ r) = enc (b.move F).members ++ moveBlocks F n r := by
  generalize hA : [(2, 0), (2, 128), (1, 253), (1, 1), (1, b.dtype), (1, b.blk.dims.length), (4, b.blk.item), (4, b.flags)] ++
    ((five b.blk.dims).map fun d => (8, d)) ++ ((five b.strides).map fun d => (8, d)) = A
  generalize hC : [(8, b.blk.cSize), (8, b.blk.uSize), (4, b.blk.bandCount), (4, b.blk.bandSize)] = C
  have h1 : enc b.members = enc A ++ (le 8 b.blk.offset ++ enc C) := by
    rw [← hA, ← hC]
    exact enc_append _ _
  have h2 : enc (b.move F).members = enc A ++ (le 8 (b.blk.offset + F) ++ enc C) := by
    rw [← hA, ← hC]
    exact enc_append _ _
  have hA2 : A.map Prod.fst = [2, 2, 1, 1, 1, 1, 4, 4, 8, 8, 8, 8, 8, 8, 8, 8, 8, 8] := by rw [← hA]; rfl
  have hC2 : C.map Prod.fst = [8, 8, 4, 4] := by rw [← hC]; rfl
  have hAl : (enc A).length = 96 := (enc_length A).trans ((congrArg List.sum hA2).trans (by decide))
  have hCl : (enc C).length = 24 := (enc_length C).trans ((congrArg List.sum hC2).trans (by decide))
  have hol := le_length 8 b.blk.offset
  rw [h1, h2, moveBlocks]
  have e : enc A ++ (le 8 b.blk.offset ++ enc C) ++ r = enc A ++ (le 8 b.blk.offset ++ (enc C ++ r)) := by simp only [List.append_assoc]
  rw [e]
  have d1 : (enc A ++ (le 8 b.blk.offset ++ (enc C ++ r))).take 96 = enc A := List.take_left' hAl
  have d2 : (enc A ++ (le 8 b.blk.offset ++ (enc C ++ r))).drop 96 = le 8 b.blk.offset ++ (enc C ++ r) := List.drop_left' hAl
  have d3 : (enc A ++ (le 8 b.blk.offset ++ (enc C ++ r))).drop 104 = enc C ++ r := by
    rw [show 104 = 96 + 8 from rfl, ← List.drop_drop, d2]
    exact List.drop_left' hol
  have d4 : (enc A ++ (le 8 b.blk.offset ++ (enc C ++ r))).drop 128 = r := by
    rw [show 128 = 104 + 24 from rfl, ← List.drop_drop, d3]
    exact List.drop_left' hCl
  rw [d1, d2, d3, d4, List.take_left' hol, List.take_left' hCl, unle_le 8 _ (by rw [pow8]; exact hb)]
  simp only [List.append_assoc]

theorem blocks_move (F : Nat) (bs : List XBlk) (h : ∀ b ∈ bs, b.blk.offset < 2 ^ 64) :
    moveBlocks F bs.length (bs.flatMap fun b => enc b.members) = bs.flatMap fun b => enc (b.move F).members := by
  induction bs with
  | nil => simp only [List.length_nil, List.flatMap_nil, moveBlocks]
  | cons b bs ih =>
    rw [List.flatMap_cons, List.flatMap_cons, List.length_cons, block_move F _ b _ (h b (by simp)), ih (fun a ha => h a (by simp [ha]))]

theorem header_move (c : Codec) (F fo : Nat) (x : Input) (mC : Nat) (order : List Nat) (s1 s2 s3 s4 st sk : Nat) :
    moveHeader F ((fullHeader c fo x mC order).marked s1 s2 s3 s4 st sk) = (fullHeader c (F + fo) x mC order).marked s1 0 s3 s4 st sk := by
  have h1 : moved F (512 + fo) = 512 + (F + fo) := by unfold moved; rw [if_pos (by omega)]; omega
  have h2 : ∀ a : Nat, moved F (512 + fo + a) = 512 + (F + fo) + a := by intro a; unfold moved; rw [if_pos (by omega)]; omega
  have h3 : ∀ a b : Nat, moved F (512 + fo + a + b) = 512 + (F + fo) + a + b := by intro a b; unfold moved; rw [if_pos (by omega)]; omega
  have h4 : ∀ a b d : Nat, moved F (512 + fo + a + b + d) = 512 + (F + fo) + a + b + d := by
    intro a b d; unfold moved; rw [if_pos (by omega)]; omega
  unfold moveHeader Header.marked fullHeader fillHeader
  simp only [h1, h2, h3, h4, Nat.add_comm fo F]

theorem offset_move (c : Codec) (F fo : Nat) (x : Input) (mC : Nat) (order : List Nat) (i : Nat) :
    x.offset c (F + fo) mC order i = x.offset c fo mC order i + F := by
  show 512 + (F + fo) + _ + _ + _ + _ = 512 + fo + _ + _ + _ + _ + F
  omega

theorem fileEnd_move (c : Codec) (F fo : Nat) (x : Input) (mC : Nat) (order : List Nat) :
    x.fileEnd c (F + fo) mC order = F + x.fileEnd c fo mC order := by
  show 512 + (F + fo) + _ + _ + _ + _ = F + (512 + fo + _ + _ + _ + _)
  omega

theorem endAt_move (c : Codec) (F fo : Nat) (x : Input) : x.endAt c (F + fo) = F + x.endAt c fo := fileEnd_move c F fo x _ _

theorem blocks_moved (c : Codec) (F fo : Nat) (x : Input) (mC : Nat) (order : List Nat) (i : Nat) :
    x.block c (F + fo) mC order i = (x.block c fo mC order i).move F := by
  unfold Input.block
  rw [offset_move]
  rfl

theorem raw_of {f : List Nat} {p : Nat} {h : Header} (hr : readHeader f p = some h) : rawHeader f p = some h := by
  unfold readHeader at hr
  unfold rawHeader
  cases hl : readAt f p 512 with
  | none => rw [hl] at hr; nomatch hr
  | some l =>
    rw [hl] at hr
    dsimp only at hr ⊢
    split at hr
    · exact hr
    · nomatch hr

/-! ## One section -/

/-- The header of a section in its new place. -/
def hdrOf (F : Nat) (f : List Nat) (s : Entry) : Nat × List Nat :=
  (F + s.off, (moveHeader F ((rawHeader f s.off).getD (Header.ofVals []))).bytes)

/-- The blocks of a section in their new place. -/
def blkOf (F : Nat) (f : List Nat) (s : Entry) : Nat × List Nat :=
  (blockMoves F f ((rawHeader f s.off).getD (Header.ofVals []))).getD (0, [])

/-- What is needed of a section for its move. -/
theorem section_move {c : Codec} {f : List Nat} {s : Entry} {F : Nat} (hx : s.x.Ok c) (hs : Stored c s.x f s.off (s.fin c))
    (hroom : F + s.fin c < 2 ^ 64) :
    (∃ h : Header, readHeader f s.off = some h ∧ blockMoves F f h = some (blkOf F f s) ∧ hdrOf F f s = (F + s.off, (moveHeader F h).bytes)) ∧
    (∀ out : List Nat, HasAt out (hdrOf F f s).1 (hdrOf F f s).2 →
      ∃ h : Header, readHeader f s.off = some h ∧ readHeader out (F + s.off) = some (moveHeader F h)) ∧
    (hdrOf F f s).2.length = 512 ∧ F + s.off + 512 ≤ (blkOf F f s).1 ∧ (blkOf F f s).1 + (blkOf F f s).2.length ≤ F + s.fin c ∧
    ∀ out : List Nat, HasAt out (hdrOf F f s).1 (hdrOf F f s).2 → HasAt out (blkOf F f s).1 (blkOf F f s).2 →
      (∀ (p : Nat) (q : List Nat), HasAt f p q → s.off + 512 ≤ p → p + q.length ≤ s.fin c → Apart (F + p, q) (blkOf F f s) →
        HasAt out (F + p) q) → Stored c s.x out (F + s.off) (F + s.fin c) := by
  obtain ⟨name, fo, x⟩ := s
  dsimp only [Entry.fin] at hx hs hroom ⊢
  obtain ⟨m, order, s1, s2, s3, s4, st, sk, hm, ho, b1, b2, b3, b4, b5, b6, he, hE, hh, hn, hmd, hb, ha⟩ := hs
  have hend : x.fileEnd c fo m.length order < 2 ^ 64 := Nat.lt_of_le_of_lt he hE
  have hfit := header_fits hx ho (packMeta_length hm) b1 b2 b3 b4 b5 b6 hend
  have hrh := readHeader_of hh hfit rfl rfl
  have hraw := raw_of hrh
  have hlen : order.length = x.arrays.length := by rw [ho.length_eq, List.length_range]
  have hb0 := hb
  unfold HasAt at hb0
  rw [blocks_length] at hb0
  have hEq := endAt_eq fo hm ho
  have hbm : blockMoves F f ((fullHeader c fo x m.length order).marked s1 s2 s3 s4 st sk) =
      some (F + (fillHeader fo x m.length).blockOffset,
        (List.range x.arrays.length).flatMap fun i => enc (x.block c (F + fo) m.length order i).members) := by
    unfold blockMoves
    show (match readAt f (fillHeader fo x m.length).blockOffset (x.arrays.length * 128) with
      | some bs => some (F + (fillHeader fo x m.length).blockOffset, moveBlocks F order.length bs)
      | none => none) = _
    rw [hb0]
    show some (F + (fillHeader fo x m.length).blockOffset, _) = _
    congr 2
    rw [hlen]
    have h1 := blocks_move F ((List.range x.arrays.length).map (x.block c fo m.length order)) (by
      intro b hbm
      obtain ⟨i, hi, rfl⟩ := List.mem_map.mp hbm
      have h2 := array_place c x fo m.length ho (List.mem_range.mp hi)
      show x.offset c fo m.length order i < 2 ^ 64
      omega)
    rw [List.length_map, List.length_range, List.flatMap_map, List.flatMap_map] at h1
    rw [h1]
    congr 1
    funext i
    rw [blocks_moved]
  have hblk : blkOf F f ⟨name, fo, x⟩ = (F + (fillHeader fo x m.length).blockOffset,
        (List.range x.arrays.length).flatMap fun i => enc (x.block c (F + fo) m.length order i).members) := by
    unfold blkOf
    rw [hraw]
    dsimp only [Option.getD]
    rw [hbm]
  have hhdr : hdrOf F f ⟨name, fo, x⟩ = (F + fo, (moveHeader F ((fullHeader c fo x m.length order).marked s1 s2 s3 s4 st sk)).bytes) := by
    unfold hdrOf
    rw [hraw]
    rfl
  rw [hblk, hhdr, header_move]
  have k1 := le_padTo x.names.length
  have k2 := le_padTo m.length
  have k3 := le_padTo (x.arrays.length * 128)
  have hno : (fillHeader fo x m.length).nameOffset = 512 + fo := rfl
  have hmo : (fillHeader fo x m.length).metaOffset = 512 + fo + padTo x.names.length := rfl
  have hbo : (fillHeader fo x m.length).blockOffset = 512 + fo + padTo x.names.length + padTo m.length := rfl
  have hf : (fillHeader fo x m.length).first = 512 + fo + padTo x.names.length + padTo m.length + padTo (x.arrays.length * 128) := rfl
  have hle : (fillHeader fo x m.length).first ≤ x.fileEnd c fo m.length order := Nat.le_add_right _ _
  have hbl := blocks_length c x (F + fo) m.length order
  have hfit' := header_fits (c := c) (fo := F + fo) hx ho (packMeta_length hm) b1 (by decide : 0 < 2 ^ 64) b3 b4 b5 b6
    (by rw [fileEnd_move]; omega)
  refine ⟨⟨_, hrh, hbm, by rw [header_move]⟩, fun out o1 => ⟨_, hrh, by rw [header_move]; exact readHeader_of o1 hfit' rfl rfl⟩, header_length _, by dsimp only; omega, by dsimp only; rw [hbl]; omega, ?_⟩
  intro out o1 o2 o3
  dsimp only at o1 o2
  refine ⟨m, order, s1, 0, s3, s4, st, sk, hm, ho, b1, by decide, b3, b4, b5, b6, ?_, hroom, o1, ?_, ?_, ?_, ?_⟩
  · rw [fileEnd_move]; omega
  · have h1 := o3 _ _ hn (by omega) (by omega) (.inr (.inl (by dsimp only; omega)))
    rw [hno] at h1
    have : (fillHeader (F + fo) x m.length).nameOffset = F + (512 + fo) := by
      show 512 + (F + fo) = _; omega
    rw [this]; exact h1
  · have h1 := o3 _ _ hmd (by omega) (by omega) (.inr (.inl (by dsimp only; omega)))
    rw [hmo] at h1
    have : (fillHeader (F + fo) x m.length).metaOffset = F + (512 + fo + padTo x.names.length) := by
      show 512 + (F + fo) + padTo x.names.length = _; omega
    rw [this]; exact h1
  · have : (fillHeader (F + fo) x m.length).blockOffset = F + (fillHeader fo x m.length).blockOffset := by
      show 512 + (F + fo) + padTo x.names.length + padTo m.length = F + (512 + fo + padTo x.names.length + padTo m.length); omega
    rw [this]; exact o2
  · intro i hi
    have h2 := array_place c x fo m.length ho hi
    have h1 := o3 _ _ (ha i hi) (by omega) (by omega) (.inr (.inr (by dsimp only; rw [hbl]; omega)))
    rw [offset_move, Nat.add_comm _ F]
    exact h1

/-! ## One file -/

/-- Two writes for each section. -/
def pairs (F : Nat) (f : List Nat) (l : List Entry) : List (Nat × List Nat) := l.flatMap fun s => [hdrOf F f s, blkOf F f s]

theorem sectionMoves_of (F : Nat) (f : List Nat) : ∀ l : List Entry,
    (∀ s ∈ l, ∃ h : Header, readHeader f s.off = some h ∧ blockMoves F f h = some (blkOf F f s) ∧
      hdrOf F f s = (F + s.off, (moveHeader F h).bytes)) → sectionMoves F f (l.map Entry.off) = some (pairs F f l)
  | [], _ => rfl
  | s :: l, hl => by
    obtain ⟨h, h1, h2, h3⟩ := hl s (by simp)
    rw [List.map_cons, sectionMoves, raw_of h1]
    dsimp only
    rw [h2]
    dsimp only
    rw [sectionMoves_of F f l (fun t ht => hl t (by simp [ht]))]
    dsimp only
    rw [← h3]
    rfl

/-- The writes for a file with these sections. -/
def allWrites (B F : Nat) (f : List Nat) (s : Entry) (r : List Entry) : List (Nat × List Nat) :=
  hdrOf F f s :: copyLoop B (f.length - 512) (F + 512) (f.drop 512) ++ blkOf F f s :: pairs F f r

/-- A file which is appended: its sections are found behind it. -/
theorem append_good {c : Codec} {f : List Nat} {s0 : Entry} {r : List Entry} {h : Header} (g : Good c f (s0 :: r) h) {B F : Nat} (hB : 0 < B)
    (hroom : F + padTo f.length < 2 ^ 64) :
    appendWrites B F f = some (allWrites B F f s0 r, (s0 :: r).map fun s => F + s.off) ∧
    (∀ w ∈ allWrites B F f s0 r, F ≤ w.1 ∧ w.1 + w.2.length ≤ F + padTo f.length) ∧
    (∀ base : List Nat, readHeader (writes base (allWrites B F f s0 r)) F = some (moveHeader F h)) ∧
    ∀ base : List Nat, ∀ s ∈ s0 :: r, Stored c s.x (writes base (allWrites B F f s0 r)) (F + s.off) (F + s.fin c) := by
  have h512 := readHeader_room g.header
  have hpad := le_padTo f.length
  have hmv : ∀ s ∈ s0 :: r, _ := fun s hs => section_move (F := F) (g.each s hs).1 (g.each s hs).2.1
    (by have := (g.each s hs).2.2.2.1; omega)
  have hoff0 : s0.off = 0 ∧ ∀ t ∈ r, 512 ≤ t.off := by
    obtain ⟨s, r', e1, e2, e3⟩ := g.start
    injection e1 with e1 e4
    subst e1; subst e4
    exact ⟨e2, e3⟩
  -- where the writes are
  have hw : ∀ s ∈ s0 :: r, ∀ w ∈ [hdrOf F f s, blkOf F f s], F + s.off ≤ w.1 ∧ w.1 + w.2.length ≤ F + s.fin c := by
    intro s hs w hw
    obtain ⟨_, _, m2, m3, m4, _⟩ := hmv s hs
    simp only [List.mem_cons, List.not_mem_nil, or_false] at hw
    have m5 : (hdrOf F f s).1 = F + s.off := rfl
    rcases hw with rfl | rfl
    · rw [m2, m5]; omega
    · omega
  have hcopy : ∀ w ∈ copyLoop B (f.length - 512) (F + 512) (f.drop 512), F + 512 ≤ w.1 ∧ w.1 + w.2.length ≤ F + f.length := by
    intro w hwm
    have := copy_inside _ _ _ _ w hwm
    rw [List.length_drop] at this
    omega
  have hpw := List.pairwise_cons.mp g.apart
  have hR : ∀ w ∈ pairs F f r, F + s0.fin c ≤ w.1 := by
    intro w hwm
    obtain ⟨t, ht, hwt⟩ := List.mem_flatMap.mp hwm
    have h1 := hw t (by simp [ht]) w hwt
    have h2 := hpw.1 t ht
    omega
  have hhdr0 : ∀ base : List Nat, HasAt (writes base (allWrites B F f s0 r)) (hdrOf F f s0).1 (hdrOf F f s0).2 := by
    intro base
    obtain ⟨_, _, m2, m3, m4, m5⟩ := hmv s0 (by simp)
    have m6 : (hdrOf F f s0).1 = F + s0.off := rfl
    refine writes_has [] (hdrOf F f s0) (copyLoop B (f.length - 512) (F + 512) (f.drop 512) ++ blkOf F f s0 :: pairs F f r) ?_
    intro v hv
    refine .inr (.inl ?_)
    rw [m2, m6, hoff0.1]
    rcases List.mem_append.mp hv with hv | hv
    · have := hcopy v hv; omega
    · rcases List.mem_cons.mp hv with rfl | hv
      · omega
      · have := hR v hv; omega
  refine ⟨?_, ?_, ?_, ?_⟩
  · obtain ⟨h0, m1, m2, m3⟩ := (hmv s0 (by simp)).1
    rw [hoff0.1, g.header] at m1
    injection m1 with m1
    subst m1
    unfold appendWrites
    rw [g.header]
    dsimp only
    rw [good_load g]
    dsimp only
    rw [m2]
    dsimp only
    have hos : (if h.sectOffset = 0 then [] else ((Entry.dir (s0 :: r)).drop 1).map Prod.snd) = r.map Entry.off := by
      rcases g.dir with ⟨_, _, _, d4, d5⟩ | ⟨_, _, _, _, _, _, d7⟩
      · rw [if_pos d4]
        have hl := congrArg List.length d5
        simp only [Entry.dir, List.length_map, List.length_cons, List.length_nil] at hl
        have : r = [] := List.length_eq_zero_iff.mp (by omega)
        subst this
        rfl
      · rw [if_neg (by omega)]
        unfold Entry.dir
        rw [List.map_cons, List.drop_one, List.tail_cons, List.map_map]
        rfl
    rw [hos, sectionMoves_of F f r (fun s hs => (hmv s (by simp [hs])).1)]
    dsimp only
    unfold allWrites
    have m3' : hdrOf F f s0 = (F, (moveHeader F h).bytes) := by rw [m3, hoff0.1]; rfl
    rw [m3', List.map_cons, hoff0.1, List.map_map]
    rfl
  · intro w hwm
    unfold allWrites pairs at hwm
    have key : ∀ s ∈ s0 :: r, w ∈ [hdrOf F f s, blkOf F f s] → F ≤ w.1 ∧ w.1 + w.2.length ≤ F + padTo f.length := by
      intro s hs hws
      have h1 := hw s hs w hws
      have h2 := (g.each s hs).2.2.2.1
      omega
    rcases List.mem_append.mp hwm with hwm | hwm
    · rcases List.mem_cons.mp hwm with rfl | hwm
      · exact key s0 (by simp) (by simp)
      · have := hcopy w hwm; omega
    · rcases List.mem_cons.mp hwm with rfl | hwm
      · exact key s0 (by simp) (by simp)
      · obtain ⟨s, hs, hws⟩ := List.mem_flatMap.mp hwm
        exact key s (by simp [hs]) hws
  · intro base
    obtain ⟨h1, e1, e2⟩ := (hmv s0 (by simp)).2.1 _ (hhdr0 base)
    rw [hoff0.1, g.header] at e1
    have e1 := Option.some.inj e1
    rw [hoff0.1, ← e1] at e2
    exact e2
  · intro base s hs
    have hcp : ∀ (p : Nat) (q : List Nat), HasAt f p q → 512 ≤ p →
        HasAt (writes base (hdrOf F f s0 :: copyLoop B (f.length - 512) (F + 512) (f.drop 512))) (F + p) q := by
      intro p q hq hp
      rw [writes_cons]
      exact hasAt_sub (copy_has B hB _ _ _ _ (by rw [List.length_drop]; exact Nat.le_refl _)) hq hp
    obtain ⟨_, _, m2, m3, m4, m5⟩ := hmv s hs
    have m6 : (hdrOf F f s).1 = F + s.off := rfl
    have hsf := (g.each s hs).2.2.1
    rcases List.mem_cons.mp hs with rfl | hs'
    · -- the first
      refine m5 _ ?_ ?_ ?_
      · exact hhdr0 base
      · refine writes_has (hdrOf F f s :: copyLoop B (f.length - 512) (F + 512) (f.drop 512)) (blkOf F f s) (pairs F f r) ?_
        intro v hv
        have := hR v hv
        exact .inr (.inl (by omega))
      · intro p q hq hp1 hp2 hap
        unfold allWrites
        rw [writes_append]
        refine writes_kept _ _ (hcp p q hq (by omega)) ?_
        intro v hv
        rcases List.mem_cons.mp hv with rfl | hv
        · exact hap
        · have := hR v hv
          exact .inr (.inl (by dsimp only; omega))
    · -- another
      obtain ⟨r1, r2, hr⟩ := List.append_of_mem hs'
      have hsplit : allWrites B F f s0 r = (hdrOf F f s0 :: copyLoop B (f.length - 512) (F + 512) (f.drop 512)) ++
          (blkOf F f s0 :: pairs F f r1 ++ hdrOf F f s :: blkOf F f s :: pairs F f r2) := by
        unfold allWrites pairs
        rw [hr, List.flatMap_append, List.flatMap_cons]
        simp
      have hb : ∀ w ∈ blkOf F f s0 :: pairs F f r1, w.1 + w.2.length ≤ F + s.off := by
        intro w hwm
        rcases List.mem_cons.mp hwm with rfl | hwm
        · have h1 := hw s0 (by simp) (blkOf F f s0) (by simp)
          have h2 := hpw.1 s hs'
          omega
        · obtain ⟨t, ht, hwt⟩ := List.mem_flatMap.mp hwm
          have h1 := hw t (by rw [hr]; simp [ht]) w hwt
          have h2 := hpw.2
          rw [hr, List.pairwise_append] at h2
          have h3 := h2.2.2 t ht s (by simp)
          omega
      have ha : ∀ w ∈ pairs F f r2, F + s.fin c ≤ w.1 := by
        intro w hwm
        obtain ⟨t, ht, hwt⟩ := List.mem_flatMap.mp hwm
        have h1 := hw t (by rw [hr]; simp [ht]) w hwt
        have h2 := hpw.2
        rw [hr, List.pairwise_append] at h2
        have h3 := (List.pairwise_cons.mp h2.2.1).1 t ht
        omega
      rw [hsplit]
      refine m5 _ ?_ ?_ ?_
      · rw [← List.append_assoc]
        refine writes_has _ (hdrOf F f s) (blkOf F f s :: pairs F f r2) ?_
        intro v hv
        refine .inr (.inl ?_)
        rw [m2, m6]
        rcases List.mem_cons.mp hv with rfl | hv
        · exact m3
        · have := ha v hv; omega
      · rw [← List.append_assoc, List.append_cons]
        refine writes_has _ (blkOf F f s) (pairs F f r2) ?_
        intro v hv
        have := ha v hv
        exact .inr (.inl (by omega))
      · intro p q hq hp1 hp2 hap
        rw [writes_append]
        refine writes_kept _ _ (hcp p q hq (by omega)) ?_
        intro v hv
        rcases List.mem_append.mp hv with hv | hv
        · have := hb v hv
          exact .inr (.inr (by dsimp only; omega))
        · rcases List.mem_cons.mp hv with rfl | hv
          · exact .inr (.inr (by dsimp only; rw [m2, m6]; omega))
          · rcases List.mem_cons.mp hv with rfl | hv
            · exact hap
            · have := ha v hv
              exact .inr (.inl (by dsimp only; omega))

/-! ## All files -/

/-- The sections of files which are put one after the other from some place on. -/
def placed : Nat → List (List Nat × List Entry) → List Entry
  | _, [] => []
  | pos, p :: r => (p.2.map fun s => ⟨[48], pos + s.off, s.x⟩) ++ placed (padTo (pos + p.1.length)) r

/-- The end of these files. -/
def concatEnd : Nat → List (List Nat × List Entry) → Nat
  | pos, [] => pos
  | pos, p :: r => concatEnd (padTo (pos + p.1.length)) r

theorem pad_add {a n : Nat} (ha : 512 ∣ a) : padTo (a + n) = a + padTo n := by
  obtain ⟨k, rfl⟩ := ha
  unfold padTo
  omega

theorem concatEnd_ge : ∀ (r : List (List Nat × List Entry)) (pos : Nat), pos ≤ concatEnd pos r
  | [], pos => Nat.le_refl pos
  | p :: r, pos => by
    rw [concatEnd]
    have h1 := concatEnd_ge r (padTo (pos + p.1.length))
    have h2 := le_padTo (pos + p.1.length)
    omega

theorem concatEnd_dvd : ∀ (r : List (List Nat × List Entry)) (pos : Nat), 512 ∣ pos → 512 ∣ concatEnd pos r
  | [], _, h => h
  | p :: r, pos, _ => by rw [concatEnd]; exact concatEnd_dvd r _ (padTo_dvd _)

theorem concat_writes {c : Codec} {B : Nat} (hB : 0 < B) : ∀ (r : List (List Nat × List Entry)) (pos : Nat), 512 ∣ pos →
    (∀ p ∈ r, ∃ h : Header, Good c p.1 p.2 h) → concatEnd pos r < 2 ^ 64 →
    ∃ ws : List (Nat × List Nat), concatWrites B pos (r.map Prod.fst) = some (ws, (placed pos r).map Entry.off, concatEnd pos r) ∧
      (∀ w ∈ ws, pos ≤ w.1 ∧ w.1 + w.2.length ≤ concatEnd pos r) ∧
      (∀ s ∈ placed pos r, pos ≤ s.off ∧ s.off ≤ s.fin c ∧ s.fin c ≤ concatEnd pos r ∧ 512 ∣ s.off ∧ s.x.Ok c ∧ s.name = [48]) ∧
      (placed pos r).Pairwise (fun s t => s.fin c ≤ t.off) ∧
      (∀ base : List Nat, ∀ s ∈ placed pos r, Stored c s.x (writes base ws) s.off (s.fin c)) ∧
      (∀ (p : List Nat × List Entry) (r' : List (List Nat × List Entry)), r = p :: r' →
        ∀ (h : Header) (base : List Nat), readHeader p.1 0 = some h → readHeader (writes base ws) pos = some (moveHeader pos h))
  | [], pos, _, _, _ => by
    refine ⟨[], rfl, nofun, nofun, List.Pairwise.nil, fun _ => nofun, fun p r' h => nomatch h⟩
  | p :: r, pos, hd, hg, hE => by
    obtain ⟨f, l⟩ := p
    obtain ⟨h, g⟩ := hg (f, l) (by simp)
    dsimp only at g
    obtain ⟨s0, l', hl, hoff0, _⟩ := g.start
    subst hl
    rw [concatEnd] at hE
    dsimp only at hE
    have hpe : padTo (pos + f.length) = pos + padTo f.length := pad_add hd
    have hge := concatEnd_ge r (padTo (pos + f.length))
    have h512 := readHeader_room g.header
    have hpf := le_padTo f.length
    obtain ⟨a1, a2, a3, a4⟩ := append_good g (F := pos) hB (by omega)
    obtain ⟨ws, c1, c2, c3, c4, c5, _⟩ := concat_writes hB r (padTo (pos + f.length)) (padTo_dvd _) (fun q hq => hg q (by simp [hq])) hE
    have hfin : ∀ s : Entry, (⟨[48], pos + s.off, s.x⟩ : Entry).fin c = pos + s.fin c := fun s => endAt_move c pos s.off s.x
    refine ⟨allWrites B pos f s0 l' ++ ws, ?_, ?_, ?_, ?_, ?_, ?_⟩
    · rw [List.map_cons, concatWrites, a1]
      dsimp only
      rw [c1]
      dsimp only
      rw [placed, concatEnd, List.map_append, List.map_map]
      rfl
    · intro w hw
      rw [concatEnd]
      dsimp only
      rcases List.mem_append.mp hw with hw | hw
      · have := a2 w hw; omega
      · have := c2 w hw; omega
    · intro s hs
      rw [placed] at hs
      rw [concatEnd]
      dsimp only at hs ⊢
      rcases List.mem_append.mp hs with hs | hs
      · obtain ⟨t, ht, rfl⟩ := List.mem_map.mp hs
        obtain ⟨g1, g2, g3, g4, _⟩ := g.each t ht
        rw [hfin]
        dsimp only
        exact ⟨by omega, by omega, by omega, Nat.dvd_add hd (g.aligned t ht), g1, rfl⟩
      · have h1 := c3 s hs
        exact ⟨by omega, h1.2⟩
    · rw [placed, List.pairwise_append]
      refine ⟨?_, c4, ?_⟩
      · rw [List.pairwise_map]
        refine g.apart.imp ?_
        intro s t hst
        rw [hfin]
        dsimp only
        omega
      · intro s hs t ht
        obtain ⟨u, hu, rfl⟩ := List.mem_map.mp hs
        have h1 := (g.each u hu).2.2.2.1
        have h2 := (c3 t ht).1
        rw [hfin]
        omega
    · intro base s hs
      rw [placed] at hs
      rw [writes_append]
      rcases List.mem_append.mp hs with hs | hs
      · obtain ⟨t, ht, rfl⟩ := List.mem_map.mp hs
        have h1 := (g.each t ht).2.2.2.1
        rw [hfin]
        refine stored_keep (a4 base t ht) ws fun w hw => .inr ?_
        have := (c2 w hw).1
        omega
      · exact c5 _ s hs
    · intro p r' he h1 base hh
      have he := (List.cons.inj he).1
      subst he
      dsimp only at hh
      rw [g.header] at hh
      have hh := Option.some.inj hh
      subst hh
      rw [writes_append]
      refine readHeader_kept (a3 base) ws fun w hw => .inl ?_
      have := (c2 w hw).1
      omega

theorem dirBytes_zero (l : List Nat) : (dirBytes (l.map fun o => ([48], o))).length = l.length * 10 := by
  rw [dirBytes_length, List.map_map]
  induction l with
  | nil => rfl
  | cons a l ih =>
    rw [List.map_cons, List.sum_cons, ih, List.length_cons]
    show 1 + 9 + _ = _
    omega

/-- The concatenation of files: all their sections are in it. -/
theorem concat_good {c : Codec} {B : Nat} (hB : 0 < B) (junk : Nat → Nat) (p : List Nat × List Entry) (r : List (List Nat × List Entry))
    (hg : ∀ q ∈ p :: r, ∃ h : Header, Good c q.1 q.2 h)
    (hE : concatEnd 0 (p :: r) + padTo ((placed 0 (p :: r)).length * 10) < 2 ^ 64) :
    ∃ (f : List Nat) (h : Header), concatFiles B junk ((p :: r).map Prod.fst) = some f ∧ Good c f (placed 0 (p :: r)) h := by
  obtain ⟨ws, c1, c2, c3, c4, c5, c6⟩ := concat_writes (c := c) hB (p :: r) 0 (Nat.dvd_zero 512) hg (by omega)
  obtain ⟨h, g⟩ := hg p (by simp)
  have h512 := readHeader_room g.header
  obtain ⟨s0, l', hl, hoff0, hl'⟩ := g.start
  have hhead : placed 0 (p :: r) = ⟨[48], 0, s0.x⟩ :: ((l'.map fun s => ⟨[48], 0 + s.off, s.x⟩) ++ placed (padTo (0 + p.1.length)) r) := by
    rw [placed, hl, List.map_cons, hoff0]
    rfl
  have hlast : 512 ≤ concatEnd 0 (p :: r) := by
    rw [concatEnd]
    have := concatEnd_ge r (padTo (0 + p.1.length))
    have := le_padTo (0 + p.1.length)
    omega
  unfold concatFiles
  rw [List.map_cons]
  dsimp only
  rw [g.header]
  dsimp only
  rw [← List.map_cons, c1]
  dsimp only
  rw [List.length_map]
  generalize hP : placed 0 (p :: r) = P at *
  generalize hL : concatEnd 0 (p :: r) = L at *
  have hPl : P.length ≠ 0 := by rw [hhead]; simp
  have hSp := le_padTo (P.length * 10)
  have hdl : (dirBytes ((P.map Entry.off).map fun o => ([48], o))).length = P.length * 10 := by rw [dirBytes_zero, List.length_map]
  have hdir : (P.map Entry.off).map (fun o => (([48] : List Nat), o)) = Entry.dir P := by
    unfold Entry.dir
    rw [List.map_map]
    apply List.map_congr_left
    intro s hs
    show ([48], s.off) = (s.name, s.off)
    rw [(c3 s hs).2.2.2.2.2]
  rw [hdir] at hdl ⊢
  generalize hS : P.length * 10 = S at *
  have hbl : (dirBlock junk (Entry.dir P) (padTo S)).length = padTo S := dirBlock_length _ _ _ (by rw [hdl]; exact hSp)
  have hr1 : readHeader (writes [] (ws ++ [(L, dirBlock junk (Entry.dir P) (padTo S))])) 0 = some (moveHeader 0 h) := by
    rw [writes_append]
    refine readHeader_kept (c6 p r rfl h [] g.header) _ fun w hw => .inl ?_
    rw [List.mem_singleton] at hw
    subst hw
    dsimp only
    omega
  have hst1 : ∀ s ∈ P, Stored c s.x (writes [] (ws ++ [(L, dirBlock junk (Entry.dir P) (padTo S))])) s.off (s.fin c) := by
    intro s hs
    rw [writes_append]
    refine stored_keep (c5 [] s hs) _ fun w hw => .inr ?_
    rw [List.mem_singleton] at hw
    subst hw
    exact (c3 s hs).2.2.1
  have hsh : h.stamp = (moveHeader 0 h).stamp := rfl
  have h0 := hst1 ⟨[48], 0, s0.x⟩ (by rw [hhead]; simp)
  have hrm := remark (c3 ⟨[48], 0, s0.x⟩ (by rw [hhead]; simp)).2.2.2.2.1 h0 hr1 (s1 := S) (s2 := L) (s3 := P.length) (s4 := padTo S) (k := 1)
    (by omega) (by omega) (by omega) (by omega) (.inl (by decide))
  rw [← hsh] at hrm
  generalize hM : (moveHeader 0 h).marked S L P.length (padTo S) h.stamp 1 = M at *
  have m1 : M.sectSize = S := by rw [← hM]; rfl
  have m2 : M.sectOffset = L := by rw [← hM]; rfl
  have m3 : M.sectCount = P.length := by rw [← hM]; rfl
  have m4 : M.sectReserved = padTo S := by rw [← hM]; rfl
  have hMl := header_length M
  have hsplit : writes [] (ws ++ [(L, dirBlock junk (Entry.dir P) (padTo S)), (0, M.bytes)]) =
      writeAt (writes [] (ws ++ [(L, dirBlock junk (Entry.dir P) (padTo S))])) 0 M.bytes := by
    rw [List.append_cons, writes_append]
    rfl
  refine ⟨_, M, rfl, ?_⟩
  have hoffs : ∀ t ∈ (l'.map fun s => (⟨[48], 0 + s.off, s.x⟩ : Entry)) ++ placed (padTo (0 + p.1.length)) r, 512 ≤ t.off := by
    intro t ht
    rcases List.mem_append.mp ht with ht | ht
    · obtain ⟨u, hu, rfl⟩ := List.mem_map.mp ht
      have := hl' u hu
      dsimp only
      omega
    · have h1 := hP
      rw [placed] at h1
      have h2 : t ∈ P := by rw [← h1]; exact List.mem_append.mpr (.inr ht)
      rw [hhead] at c4
      have h3 := (List.pairwise_cons.mp c4).1 t (List.mem_append.mpr (.inr ht))
      have h4 : 512 ≤ (⟨[48], 0, s0.x⟩ : Entry).fin c := by
        show 512 ≤ 512 + 0 + _ + _ + _ + _
        omega
      omega
  refine ⟨by rw [hsplit]; exact hrm.2, ⟨_, _, hhead, rfl, hoffs⟩, ?_, ?_, c4, fun s hs => (c3 s hs).2.2.2.1, by omega, by rw [m2, m4]; exact hE,
    .inr ⟨by rw [m1]; omega, m3, by rw [m1, hdl], ?_, by rw [m1, m4]; exact hSp, ?_, by rw [m2]; exact hlast⟩⟩
  · intro s hs b hb
    rw [(c3 s hs).2.2.2.2.2, List.mem_singleton] at hb
    subst hb
    decide
  · intro s hs
    have hk := c3 s hs
    have h1 : Stored c s.x (writes [] (ws ++ [(L, dirBlock junk (Entry.dir P) (padTo S)), (0, M.bytes)])) s.off (s.fin c) := by
      rw [hsplit]
      have hs2 := hs
      rw [hhead] at hs2
      rcases List.mem_cons.mp hs2 with rfl | hs2
      · exact hrm.1
      · have h6 := hoffs s hs2
        exact stored_keep (hst1 s hs) [(0, M.bytes)] fun w hw => by
          rw [List.mem_singleton] at hw
          subst hw
          left
          simp only [hMl]
          omega
    obtain ⟨e1, e2, e3, e4⟩ := end_covered hk.2.2.2.1 h1
    exact ⟨hk.2.2.2.2.1, h1, hk.2.1, e4, .inr (.inl (by rw [m2]; exact hk.2.2.1))⟩
  · rw [m2]
    refine hasAt_front (b := (List.range (padTo S - (dirBytes (Entry.dir P)).length)).map junk) ?_
    refine writes_has ws (L, dirBlock junk (Entry.dir P) (padTo S)) [(0, M.bytes)] ?_
    intro v hv
    rw [List.mem_singleton] at hv
    subst hv
    refine .inr (.inr ?_)
    simp only [hMl]
    omega
  · rw [m2, m4]
    have h3 := writes_room [] ws [(0, M.bytes)] (L, dirBlock junk (Entry.dir P) (padTo S))
      (by intro h0; have := congrArg List.length h0; simp only [hbl, List.length_nil] at this; omega)
    simp only [hbl] at h3
    exact h3

end Riptide.Sds
