import Verif.Sds.FileProps
import Verif.Sds.ShareSpec
/-! # Lemmas about shared memory -/
namespace Riptide.Sds

/-! ### Writes into a mapping -/

theorem writeAt_inside {m : List Nat} {pos : Nat} {l : List Nat} (h : l = [] ∨ pos + l.length ≤ m.length) :
    (writeAt m pos l).length = m.length := by
  by_cases h0 : l = []
  · unfold writeAt; rw [if_pos h0]
  · rw [writeAt_length h0]
    rcases h with h | h
    · exact absurd h h0
    · omega

theorem puts_ok : ∀ (ws : List (Nat × List Nat)) (m : List Nat), (∀ w ∈ ws, w.2 = [] ∨ w.1 + w.2.length ≤ m.length) →
    puts m ws = some (writes m ws) ∧ (writes m ws).length = m.length
  | [], m, _ => ⟨rfl, rfl⟩
  | w :: ws, m, h => by
    have h1 := h w (by simp)
    have h2 := writeAt_inside h1
    have h3 := puts_ok ws (writeAt m w.1 w.2) (fun v hv => by rw [h2]; exact h v (by simp [hv]))
    have h4 : putAt m w.1 w.2 = some (writeAt m w.1 w.2) := by unfold putAt; rw [if_pos h1]
    rw [puts, h4, writes_cons]
    exact ⟨h3.1, h3.2.trans h2⟩

theorem writes_all {f : List Nat} : ∀ (ws : List (Nat × List Nat)), ws.Pairwise Apart → ∀ w ∈ ws, HasAt (writes f ws) w.1 w.2 := by
  intro ws hp w hw
  obtain ⟨a, b, rfl⟩ := List.append_of_mem hw
  refine writes_has a w b ?_
  intro v hv
  have h1 := (List.pairwise_append.mp hp).2.1
  exact (List.pairwise_cons.mp h1).1 v hv

/-! ### Parts one after the other -/

theorem tally_length : ∀ (s : Nat) (ns : List Nat), (tally s ns).length = ns.length
  | _, [] => rfl
  | s, n :: ns => by rw [tally, List.length_cons, tally_length, List.length_cons]

theorem tally_parts : ∀ (s : Nat) (ds : List (List Nat)),
    (List.zipWith Prod.mk (tally s (ds.map List.length)) ds).Pairwise Apart ∧
    ∀ w ∈ List.zipWith Prod.mk (tally s (ds.map List.length)) ds, s ≤ w.1 ∧ w.1 + w.2.length ≤ s + ((ds.map List.length).map padTo).sum
  | _, [] => ⟨List.Pairwise.nil, by intro w hw; nomatch hw⟩
  | s, d :: ds => by
    obtain ⟨h1, h2⟩ := tally_parts (s + padTo d.length) ds
    have hd := le_padTo d.length
    simp only [List.map_cons, tally, List.zipWith_cons_cons, List.sum_cons]
    refine ⟨List.pairwise_cons.mpr ⟨?_, h1⟩, ?_⟩
    · intro w hw
      have := h2 w hw
      exact .inr (.inl (by show s + d.length ≤ w.1; omega))
    · intro w hw
      rcases List.mem_cons.mp hw with rfl | hw
      · exact ⟨Nat.le_refl _, by show s + d.length ≤ _; omega⟩
      · have := h2 w hw
        omega

/-! ### Blocks -/

theorem share_room {b : XBlk} (hb : b.Fits) : ∀ p ∈ b.shareMembers, p.2 < 256 ^ p.1 := by
  intro p hp
  have h := hb.room
  unfold XBlk.members at h
  unfold XBlk.shareMembers at hp
  simp only [List.append_assoc, List.cons_append, List.nil_append, List.mem_cons] at hp h
  rcases hp with rfl | rfl | rfl | rfl | hp
  · decide
  · decide
  · decide
  · decide
  · exact h p (.inr (.inr (.inr (.inr hp))))

theorem share_block_length (b : XBlk) : (enc b.shareMembers).length = 128 := by
  have h1 : b.shareMembers.map Prod.fst = blockWidths := rfl
  exact (enc_length b.shareMembers).trans ((congrArg List.sum h1).trans (by decide))

theorem share_block_back {b : XBlk} (hb : b.Fits) : XBlk.ofVals (dec blockWidths (enc b.shareMembers)) = b := by
  have h2 : dec blockWidths (enc b.shareMembers) = b.shareMembers.map Prod.snd := by
    have := dec_enc [] b.shareMembers (share_room hb)
    rw [List.append_nil] at this
    exact this
  rw [h2]
  obtain ⟨⟨dims, item, cs, us, off, bc, bs⟩, dt, fl, st⟩ := b
  have h3 : [dims.getD 0 0, dims.getD 1 0, dims.getD 2 0, dims.getD 3 0, dims.getD 4 0].take dims.length = dims := five_take hb.dims
  have h4 : [st.getD 0 0, st.getD 1 0, st.getD 2 0, st.getD 3 0, st.getD 4 0].take dims.length = st := by
    have h5 : st.length = dims.length := hb.strides
    have h6 : dims.length ≤ 5 := hb.dims
    have := five_take (l := st) (by omega)
    rwa [h5] at this
  show XBlk.mk (Blk.mk ([dims.getD 0 0, dims.getD 1 0, dims.getD 2 0, dims.getD 3 0, dims.getD 4 0].take dims.length) item cs us off bc bs)
    dt fl ([st.getD 0 0, st.getD 1 0, st.getD 2 0, st.getD 3 0, st.getD 4 0].take dims.length) = _
  rw [h3, h4]

theorem shareBlocks_length : ∀ l : List XBlk, (shareBlocks l).length = l.length * 128
  | [] => rfl
  | b :: l => by
    show (enc b.shareMembers ++ shareBlocks l).length = _
    rw [List.length_append, share_block_length, shareBlocks_length l, List.length_cons]; omega

theorem shareBlocks_back : ∀ l : List XBlk, (∀ b ∈ l, b.Fits) → readBlocks l.length (shareBlocks l) = l
  | [], _ => rfl
  | b :: l, h => by
    have h1 : shareBlocks (b :: l) = enc b.shareMembers ++ shareBlocks l := rfl
    rw [h1]
    show XBlk.ofVals (dec blockWidths ((enc b.shareMembers ++ _).take 128)) :: readBlocks l.length ((enc b.shareMembers ++ _).drop 128) = b :: l
    rw [List.take_left' (share_block_length b), List.drop_left' (share_block_length b), share_block_back (h b (by simp)),
      shareBlocks_back l (fun a ha => h a (by simp [ha]))]

/-! ### A share -/

/-- The parts of a share do not overlap. -/
theorem share_apart {h : Header} {names metaData : List Nat} {blocks : List XBlk} {datas : List (List Nat)} {nc fT au bs w : Nat}
    (hh : h = shareHeader names.length nc metaData.length blocks.length w fT au bs)
    (hoff : blocks.map (fun b => b.blk.offset) = tally h.first (datas.map List.length)) :
    (shareWrites h names metaData blocks datas).Pairwise Apart ∧
    ∀ v ∈ shareWrites h names metaData blocks datas, v.1 + v.2.length ≤ h.first + ((datas.map List.length).map padTo).sum := by
  have hz : List.zipWith (fun (b : XBlk) (d : List Nat) => (b.blk.offset, d)) blocks datas =
      List.zipWith Prod.mk (tally h.first (datas.map List.length)) datas := by
    rw [← hoff, List.zipWith_map_left]
  obtain ⟨t1, t2⟩ := tally_parts h.first datas
  have hn := le_padTo names.length
  have hm := le_padTo metaData.length
  have hb := le_padTo (blocks.length * 128)
  have e1 : h.bytes.length = 512 := header_length h
  have e2 : h.nameOffset = 512 := by rw [hh]; rfl
  have e3 : h.metaOffset = 512 + padTo names.length := by rw [hh]; rfl
  have e4 : h.blockOffset = 512 + padTo names.length + padTo metaData.length := by rw [hh]; rfl
  have e5 : h.first = 512 + padTo names.length + padTo metaData.length + padTo (blocks.length * 128) := by rw [hh]; rfl
  have e6 := shareBlocks_length blocks
  unfold shareWrites
  rw [hz]
  refine ⟨?_, ?_⟩
  · simp only [List.cons_append, List.nil_append, List.pairwise_cons, List.forall_mem_cons]
    refine ⟨⟨?_, ?_, ?_, ?_⟩, ⟨?_, ?_, ?_⟩, ⟨?_, ?_⟩, ?_, t1⟩
    any_goals (refine .inr (.inl ?_); simp only; omega)
    all_goals
      intro v hv
      have := t2 v hv
      refine .inr (.inl ?_)
      simp only
      omega
  · simp only [List.cons_append, List.nil_append, List.forall_mem_cons]
    refine ⟨by omega, by omega, by omega, by omega, ?_⟩
    intro v hv
    exact (t2 v hv).2

/-- A share whose parts are where the header says is read. -/
theorem readShare_of {h : Header} {names metaData : List Nat} {blocks : List XBlk} {nc fT au bs : Nat} {m : List Nat}
    (hh : h = shareHeader names.length nc metaData.length blocks.length blocks.length fT au bs) (hf : h.Fits)
    (hb : ∀ b ∈ blocks, b.Fits) (hrunt : ∀ b ∈ blocks, ¬(fixType b.dtype b.blk.item = 18 ∧ b.blk.item = 0))
    (w1 : HasAt m 0 h.bytes) (w2 : HasAt m h.nameOffset names) (w3 : HasAt m h.metaOffset metaData)
    (w4 : HasAt m h.blockOffset (shareBlocks blocks)) :
    readShare m = some ⟨fT, names, nc, metaData, blocks.map viewOf, m⟩ := by
  unfold HasAt at w1 w2 w3 w4
  rw [header_length] at w1
  rw [shareBlocks_length] at w4
  have h2 : Header.ofVals (dec headerWidths h.bytes) = h := by
    have h3 : dec headerWidths h.bytes = h.members.map Prod.snd := by
      have := dec_enc [] h.members hf
      rw [List.append_nil] at this
      exact this
    rw [h3]; rfl
  have hr : ∀ l : List XBlk, (∀ b ∈ l, ¬(fixType b.dtype b.blk.item = 18 ∧ b.blk.item = 0)) → runts m l = some m := by
    intro l
    induction l with
    | nil => intro _; rfl
    | cons b l ih =>
      intro hl
      have h4 : runt m b = some m := by unfold runt; rw [if_neg (hl b (by simp))]
      rw [runts, h4]
      exact ih (fun c hc => hl c (by simp [hc]))
  have f1 : h.nameSize = names.length := by rw [hh]; rfl
  have f2 : h.metaSize = metaData.length := by rw [hh]; rfl
  have f3 : h.written = blocks.length := by rw [hh]; rfl
  have f4 : h.fileType = fT := by rw [hh]; rfl
  have f5 : h.nameCount = nc := by rw [hh]; rfl
  unfold readShare
  rw [w1]
  dsimp only
  rw [h2, f1, w2]
  dsimp only
  rw [f2, w3]
  dsimp only
  rw [f3, w4]
  dsimp only
  rw [shareBlocks_back blocks hb, hr blocks hrunt, f4, f5]

/-- What is written into a share is read from it. -/
theorem share_reads {h : Header} {names metaData : List Nat} {blocks : List XBlk} {datas : List (List Nat)} {nc fT au bs T : Nat}
    (hh : h = shareHeader names.length nc metaData.length blocks.length blocks.length fT au bs) (hf : h.Fits)
    (hb : ∀ b ∈ blocks, b.Fits) (hrunt : ∀ b ∈ blocks, ¬(fixType b.dtype b.blk.item = 18 ∧ b.blk.item = 0))
    (hoff : blocks.map (fun b => b.blk.offset) = tally h.first (datas.map List.length))
    (hT : h.first + ((datas.map List.length).map padTo).sum ≤ T) :
    ∃ m, puts (List.replicate T 0) (shareWrites h names metaData blocks datas) = some m ∧ m.length = T ∧
      readShare m = some ⟨fT, names, nc, metaData, blocks.map viewOf, m⟩ ∧
      ∀ v ∈ List.zipWith (fun (b : XBlk) (d : List Nat) => (b.blk.offset, d)) blocks datas, HasAt m v.1 v.2 ∧ v.1 + v.2.length ≤ m.length := by
  obtain ⟨ap, ins⟩ := share_apart hh hoff
  have hfit : ∀ w ∈ shareWrites h names metaData blocks datas, w.2 = [] ∨ w.1 + w.2.length ≤ (List.replicate T 0).length := by
    intro w hw
    rw [List.length_replicate]
    exact .inr (Nat.le_trans (ins w hw) hT)
  obtain ⟨p1, p2⟩ := puts_ok _ _ hfit
  rw [List.length_replicate] at p2
  have hall := writes_all (f := List.replicate T 0) _ ap
  refine ⟨_, p1, p2, ?_, ?_⟩
  · exact readShare_of hh hf hb hrunt (hall (0, h.bytes) (by simp [shareWrites])) (hall (h.nameOffset, names) (by simp [shareWrites]))
      (hall (h.metaOffset, metaData) (by simp [shareWrites])) (hall (h.blockOffset, shareBlocks blocks) (by simp [shareWrites]))
  · intro v hv
    have hv' : v ∈ shareWrites h names metaData blocks datas := by unfold shareWrites; exact List.mem_append_right _ hv
    exact ⟨hall v hv', by rw [p2]; exact Nat.le_trans (ins v hv') hT⟩

/-- The same with another header first and the header last. -/
theorem share_late {h h0 : Header} {names metaData : List Nat} {blocks : List XBlk} {datas : List (List Nat)} {nc fT au bs T : Nat}
    (hh : h = shareHeader names.length nc metaData.length blocks.length blocks.length fT au bs)
    (hoff : blocks.map (fun b => b.blk.offset) = tally h.first (datas.map List.length))
    (hT : h.first + ((datas.map List.length).map padTo).sum ≤ T) :
    ∃ m, puts (List.replicate T 0) ([(0, h0.bytes), (h.nameOffset, names), (h.metaOffset, metaData), (h.blockOffset, shareBlocks blocks)] ++
        List.zipWith (fun (b : XBlk) (d : List Nat) => (b.blk.offset, d)) blocks datas ++ [(0, h.bytes)]) = some m ∧ m.length = T ∧
      ∀ v ∈ shareWrites h names metaData blocks datas, HasAt m v.1 v.2 ∧ v.1 + v.2.length ≤ T := by
  obtain ⟨ap, ins⟩ := share_apart hh hoff
  generalize hz : List.zipWith (fun (b : XBlk) (d : List Nat) => (b.blk.offset, d)) blocks datas = zs at *
  have hsw : shareWrites h names metaData blocks datas =
      (0, h.bytes) :: ([(h.nameOffset, names), (h.metaOffset, metaData), (h.blockOffset, shareBlocks blocks)] ++ zs) := by
    unfold shareWrites; rw [hz]; rfl
  rw [hsw] at ap ins ⊢
  have hlist : ([(0, h0.bytes), (h.nameOffset, names), (h.metaOffset, metaData), (h.blockOffset, shareBlocks blocks)] ++ zs ++ [(0, h.bytes)]) =
      (0, h0.bytes) :: (([(h.nameOffset, names), (h.metaOffset, metaData), (h.blockOffset, shareBlocks blocks)] ++ zs) ++ [(0, h.bytes)]) := rfl
  rw [hlist]
  generalize [(h.nameOffset, names), (h.metaOffset, metaData), (h.blockOffset, shareBlocks blocks)] ++ zs = rest at *
  have hz0 := ins (0, h.bytes) (by simp)
  simp only [header_length] at hz0
  have hfit : ∀ w ∈ (0, h0.bytes) :: (rest ++ [(0, h.bytes)]), w.2 = [] ∨ w.1 + w.2.length ≤ (List.replicate T 0).length := by
    rw [List.length_replicate]
    intro w hw
    refine .inr ?_
    rcases List.mem_cons.mp hw with rfl | hw
    · simp only [header_length]; omega
    · rcases List.mem_append.mp hw with hw | hw
      · exact Nat.le_trans (ins w (by simp [hw])) hT
      · rw [List.mem_singleton.mp hw]; simp only [header_length]; omega
  obtain ⟨p1, p2⟩ := puts_ok _ _ hfit
  rw [List.length_replicate] at p2
  have hp : (rest ++ [(0, h.bytes)]).Pairwise Apart := by
    obtain ⟨q1, q2⟩ := List.pairwise_cons.mp ap
    refine List.pairwise_append.mpr ⟨q2, by simp, ?_⟩
    intro v hv w hw
    rw [List.mem_singleton.mp hw]
    rcases q1 v hv with h3 | h3 | h3
    · have := header_length h
      simp only at h3
      rw [h3] at this; simp at this
    · exact .inr (.inr h3)
    · exact .inr (.inl h3)
  refine ⟨_, p1, p2, ?_⟩
  intro v hv
  refine ⟨?_, Nat.le_trans (ins v hv) hT⟩
  rw [writes_cons]
  refine writes_all _ hp v ?_
  rcases List.mem_cons.mp hv with rfl | hv
  · simp
  · exact List.mem_append_left _ hv

end Riptide.Sds
