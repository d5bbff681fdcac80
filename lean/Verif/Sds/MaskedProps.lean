import Verif.Sds.MaskedSpec

/-! # **C143**: reading with a mask -/
namespace Riptide.Sds.Masked
open Riptide.Sds

/-! ## Lemmas -/

theorem bit_zero (f : Nat) : (f &&& 1 != 0) = f.testBit 0 := by
  rw [Nat.and_one_is_mod, Nat.testBit_zero]
  rcases Nat.mod_two_eq_zero_or_one f with h | h <;> simp [h]

theorem filtered_iff (t flags : Nat) : filtered t flags = true ↔ Column t flags := by
  have h0 := bit_zero flags
  have h28 : (flags &&& 28 == 0) = true ↔ flags.testBit 2 = false ∧ flags.testBit 3 = false ∧ flags.testBit 4 = false := by
    rw [beq_iff_eq]
    constructor
    · intro h
      have e : ∀ k, (flags &&& 28).testBit k = false := by intro k; rw [h]; simp
      refine ⟨?_, ?_, ?_⟩
      · have := e 2; rw [Nat.testBit_and, show Nat.testBit 28 2 = true from by decide] at this; simpa using this
      · have := e 3; rw [Nat.testBit_and, show Nat.testBit 28 3 = true from by decide] at this; simpa using this
      · have := e 4; rw [Nat.testBit_and, show Nat.testBit 28 4 = true from by decide] at this; simpa using this
    · rintro ⟨h2, h3, h4⟩
      apply Nat.eq_of_testBit_eq
      intro k
      rw [Nat.testBit_and, Nat.zero_testBit]
      by_cases hk : k < 5
      · have : k = 0 ∨ k = 1 ∨ k = 2 ∨ k = 3 ∨ k = 4 := by omega
        rcases this with h | h | h | h | h <;> subst h <;> simp [h2, h3, h4, show Nat.testBit 28 1 = false from by decide, show Nat.testBit 28 0 = false from by decide]
      · rw [show Nat.testBit 28 k = false from Nat.testBit_lt_two_pow (Nat.lt_of_lt_of_le (by decide : 28 < 2 ^ 5) (Nat.pow_le_pow_right (by decide) (by omega)))]
        simp
  unfold filtered stackable Column
  simp only [Bool.and_eq_true, h28, Bool.or_eq_true, beq_iff_eq]
  rw [h0]
  constructor
  · rintro ⟨⟨⟨a, b, d⟩, e⟩, (h | h) | h⟩
    · exact ⟨.inl h, e, a, b, d⟩
    · exact ⟨.inr (.inl h), e, a, b, d⟩
    · exact ⟨.inr (.inr h), e, a, b, d⟩
  · rintro ⟨h | h | h, e, a, b, d⟩
    · exact ⟨⟨⟨a, b, d⟩, e⟩, .inl (.inl h)⟩
    · exact ⟨⟨⟨a, b, d⟩, e⟩, .inl (.inr h)⟩
    · exact ⟨⟨⟨a, b, d⟩, e⟩, .inr h⟩

theorem place_full (dims : List Nat) {n : Nat} {l : List Nat} (h : l.length = n) : place dims n l = some (.made dims (l.map some)) := by
  subst h
  simp [place]

theorem wrote_dims {c : Codec} {bytes : List Nat} {e : Entry} {s : Source} (h : Wrote c bytes e s) :
    e.blk.dims = s.arr.dims ∧ e.blk.item = s.arr.item := by
  obtain ⟨_, ok, z, bs, off, hb, _⟩ := h
  rw [hb]
  exact ⟨List.take_of_length_le ok.dims, rfl⟩

theorem whole_wrote {c : Codec} (hc : c.Lawful) {bytes : List Nat} {e : Entry} {s : Source} (h : Wrote c bytes e s) :
    whole c bytes e.blk = some (allOf s.arr) := by
  obtain ⟨hd, hi⟩ := wrote_dims h
  obtain ⟨_, ok, z, bs, off, hb, hat, hn⟩ := h
  unfold whole allOf
  rw [hd]
  split
  · rfl
  · rw [hi, hb, read_written_partial hc z bs s.arr ok off bytes hat (by rw [← hb]; exact hn)]
    exact place_full _ ok.bytes

theorem many_whole {c : Codec} (hc : c.Lawful) {bytes : List Nat} {e : Entry} {s : Source} (h : Wrote c bytes e s) :
    (if rowBytes e.blk.dims e.blk.item = 0 ∧ e.blk.dims ≠ [] then place e.blk.dims (prod e.blk.dims * e.blk.item) [] else whole c bytes e.blk) =
      some (allOf s.arr) := by
  split
  · rename_i h0
    obtain ⟨hd, hi⟩ := wrote_dims h
    have ok := h.2.1
    rw [hd, hi] at h0 ⊢
    cases hds : s.arr.dims with
    | nil => exact absurd hds h0.2
    | cons d ds =>
      have hl : s.arr.data.length = 0 := by
        rw [ok.bytes, hds, prod_cons]
        rcases Nat.eq_zero_or_pos d with hz | hp
        · rw [hz]; simp
        · rw [hds, rowBytes_cons hp] at h0
          rw [Nat.mul_assoc, h0.1, Nat.mul_zero]
      have hb := ok.bytes
      rw [hl, hds] at hb
      rw [← hb, List.length_eq_zero_iff.mp hl |> fun e => show allOf s.arr = .made (d :: ds) [] by simp [allOf, hds, e]]
      rfl
  · exact whole_wrote hc h

theorem mapM_wrotes {c : Codec} {bytes : List Nat} (g : Entry → Option Made) (w : Source → Made)
    (hg : ∀ e s, Wrote c bytes e s → g e = some (w s)) : ∀ {es : List Entry} {ss : List Source}, Wrotes c bytes es ss → es.mapM g = some (ss.map w)
  | _, _, .nil => rfl
  | _, _, .cons h t => by
    rw [List.mapM_cons, hg _ _ h, mapM_wrotes g w hg t]
    rfl

/-- A version with membership. -/
theorem mapM_wrotes_mem {c : Codec} {bytes : List Nat} (g : Entry → Option Made) (w : Source → Made) :
    ∀ {es : List Entry} {ss : List Source}, Wrotes c bytes es ss → (∀ e s, s ∈ ss → Wrote c bytes e s → g e = some (w s)) → es.mapM g = some (ss.map w)
  | _, _, .nil, _ => rfl
  | _, _, .cons h t, hg => by
    rw [List.mapM_cons, hg _ _ (by simp) h, mapM_wrotes_mem g w t (fun e s hs => hg e s (by simp [hs]))]
    rfl

theorem seen_contiguous {mem : List Bool} {pos n : Nat} {m : List Bool} (h : (MaskArg.bools mem pos 1 n).Means m) (hn : 0 < n) :
    (MaskArg.bools mem pos 1 n).seen = some (some m) := by
  obtain ⟨hl, hm⟩ := h
  have hin : pos + n ≤ mem.length := by
    obtain ⟨_, h2⟩ := hm (n - 1) (by omega)
    rw [List.getElem?_eq_getElem (by omega : n - 1 < m.length)] at h2
    obtain ⟨h3, _⟩ := List.getElem?_eq_some_iff.mp h2
    omega
  show (if pos + n ≤ mem.length then _ else _) = _
  rw [if_pos hin]
  congr 2
  apply List.ext_getElem?
  intro i
  rw [List.getElem?_take]
  split
  · rename_i hi
    obtain ⟨_, h2⟩ := hm i hi
    rw [← h2, List.getElem?_drop]
    congr 1; omega
  · rw [List.getElem?_eq_none (by omega)]

theorem seen_none {mem : List Bool} {pos : Nat} {stride : Int} (hp : pos ≤ mem.length) : (MaskArg.bools mem pos stride 0).seen = some (some []) := by
  show (if pos + 0 ≤ mem.length then _ else _) = _
  rw [if_pos (by omega)]
  simp

/-! ## One file -/

/-- An array of one file. -/
theorem entry_one {c : Codec} (hc : c.Lawful) {f : MFile} {e : Entry} {s : Source} (h : Wrote c f.bytes e s) {m : List Bool}
    (hm : m.count true ≠ 0) (hne : Column f.fileType s.flags → s.arr.dims ≠ [] → s.arr.data ≠ [])
    (hfit : Column f.fileType s.flags → (m.take (s.arr.dims.headD 0)).count true = min (m.count true) (s.arr.dims.headD 0)) :
    entryOne c f (some m) e = some (wanted f.fileType m s) := by
  obtain ⟨hd, hi⟩ := wrote_dims h
  have hw := whole_wrote hc h
  obtain ⟨hfl, ok, z, bs, off, hb, hat, hn⟩ := h
  show (if filtered f.fileType e.flags = true then _ else _) = _
  unfold wanted
  rw [hfl]
  by_cases hcol : Column f.fileType s.flags
  · rw [if_pos ((filtered_iff _ _).mpr hcol), if_pos hcol, hd]
    unfold rowsOf
    obtain ⟨⟨dims, item, data⟩, fl⟩ := s
    cases dims with
    | nil => rfl
    | cons d ds =>
      simp only at hd hi ok hb hat hne hfit hcol ⊢
      rw [if_neg (by simp)]
      have hdata := hne hcol (by simp)
      have hfit := hfit hcol
      simp only [List.headD_cons] at hfit
      have h1 := (masked_iff hc z bs d ds item data ok off f.bytes hat m).2 hm hdata
      have h2 := masked_rows c z bs d ds item data ok.dims off f.bytes m
      rw [hb]
      have hsplit : readMasked c f.bytes (writeArr c z bs ⟨d :: ds, item, data⟩ off).1 m =
          (some (pickRows (prod ds * item) (fun i => m.getD i false) d data), min (m.count true) d) := by
        rw [← h1, ← h2]
      rw [hsplit]
      simp only [List.tail_cons]
      rw [← hb, hi, hfit]
      apply place_full
      have hsz := ok.bytes
      simp only at hsz
      rw [prod_cons, Nat.mul_assoc] at hsz
      rw [pick_count _ _ _ _ (by omega), mask_count, hfit, Nat.mul_assoc]
  · rw [if_neg (fun x => hcol ((filtered_iff _ _).mp x)), if_neg hcol]
    exact hw

/-- **C143** (partial: the mask lies in one piece, selects at least one row, the columns have rows, and the mask selects no row behind the end of
a column or all of its rows): of every column of the file the rows at which the mask is set are read, of every other array all. -/
theorem one_file_partial {c : Codec} (hc : c.Lawful) {f : MFile} {ss : List Source} (hf : Wrotes c f.bytes f.entries ss) {mem : List Bool} {pos n : Nat}
    {m : List Bool} (hmask : (MaskArg.bools mem pos 1 n).Means m) (hm : true ∈ m)
    (hne : ∀ s ∈ ss, Column f.fileType s.flags → s.arr.dims ≠ [] → s.arr.data ≠ [])
    (hfit : ∀ s ∈ ss, Column f.fileType s.flags → (m.take (s.arr.dims.headD 0)).count true = min (m.count true) (s.arr.dims.headD 0)) :
    readOne c f (.bools mem pos 1 n) = some (ss.map (wanted f.fileType m)) := by
  have hpos : 0 < n := by rw [← hmask.1]; exact List.length_pos_of_mem hm
  unfold readOne
  rw [seen_contiguous hmask hpos]
  have hcount : m.count true ≠ 0 := by have := List.count_pos_iff.mpr hm; omega
  exact mapM_wrotes_mem _ _ hf (fun e s hs h => entry_one hc h hcount (hne s hs) (hfit s hs))

theorem fit_of_length (m : List Bool) (d : Nat) (h : m.length ≤ d) : (m.take d).count true = min (m.count true) d := by
  have := List.count_le_length (a := true) (l := m)
  rw [List.take_of_length_le h]; omega

/-- In a file whose columns all have as many rows as the mask the rows are read. -/
theorem one_file_same_length {c : Codec} (hc : c.Lawful) {f : MFile} {ss : List Source} (hf : Wrotes c f.bytes f.entries ss) {mem : List Bool} {pos n : Nat}
    {m : List Bool} (hmask : (MaskArg.bools mem pos 1 n).Means m) (hm : true ∈ m)
    (hlen : ∀ s ∈ ss, Column f.fileType s.flags → s.arr.dims.headD 0 = n ∧ s.arr.data ≠ []) :
    readOne c f (.bools mem pos 1 n) = some (ss.map (wanted f.fileType m)) :=
  one_file_partial hc hf hmask hm (fun s hs hcol _ => (hlen s hs hcol).2)
    (fun s hs hcol => fit_of_length m _ (by rw [(hlen s hs hcol).1, hmask.1]; omega))

theorem mapM_none_of {α β : Type} (g : α → Option β) : ∀ {l : List α} {a : α}, a ∈ l → g a = none → l.mapM g = none
  | b :: l, a, h, hg => by
    rw [List.mapM_cons]
    rcases List.mem_cons.mp h with rfl | h
    · rw [hg]; rfl
    · rw [mapM_none_of g h hg]
      cases g b <;> rfl

theorem wrotes_mem {c : Codec} {bytes : List Nat} : ∀ {es : List Entry} {ss : List Source}, Wrotes c bytes es ss → ∀ {s}, s ∈ ss →
    ∃ e, e ∈ es ∧ Wrote c bytes e s
  | _, _, .nil, _, h => by simp at h
  | _, _, .cons (e := e) (s := s') h t, s, hs => by
    rcases List.mem_cons.mp hs with rfl | hs
    · exact ⟨e, by simp, h⟩
    · obtain ⟨e, h1, h2⟩ := wrotes_mem t hs
      exact ⟨e, by simp [h1], h2⟩

/-- If the mask selects no row at all, or a column has no rows, a file with a column cannot be read: there is a division by zero. -/
theorem one_file_no_rows_undefined {c : Codec} (hc : c.Lawful) {f : MFile} {ss : List Source} (hf : Wrotes c f.bytes f.entries ss) {mem : List Bool}
    {pos n : Nat} {m : List Bool} (hmask : (MaskArg.bools mem pos 1 n).Means m) (hn : 0 < n) {s : Source} (hs : s ∈ ss) (hcol : Column f.fileType s.flags)
    (hd : s.arr.dims ≠ []) (h : true ∉ m ∨ s.arr.data = []) : readOne c f (.bools mem pos 1 n) = none := by
  unfold readOne
  rw [seen_contiguous hmask hn]
  obtain ⟨e, he, hw⟩ := wrotes_mem hf hs
  apply mapM_none_of _ he
  obtain ⟨hdd, _⟩ := wrote_dims hw
  obtain ⟨hfl, ok, z, bs, off, hb, hat, _⟩ := hw
  show (if filtered f.fileType e.flags = true then _ else _) = _
  rw [hfl, if_pos ((filtered_iff _ _).mpr hcol), hdd, if_neg hd, hb]
  obtain ⟨⟨dims, item, data⟩, fl⟩ := s
  cases dims with
  | nil => exact absurd rfl hd
  | cons d ds =>
    simp only at hb hat ok h ⊢
    have h1 := (masked_iff hc z bs d ds item data ok off f.bytes hat m).1 (by
      rcases h with h | h
      · left; exact List.count_eq_zero.mpr h
      · right; exact h)
    generalize readMasked c f.bytes (writeArr c z bs ⟨d :: ds, item, data⟩ off).1 m = r at h1 ⊢
    obtain ⟨a, b⟩ := r
    simp only at h1
    subst h1
    rfl

/-- In a file without columns, such as a structure, all of every array is read, whatever the mask is. -/
theorem no_columns_all {c : Codec} (hc : c.Lawful) {f : MFile} {ss : List Source} (hf : Wrotes c f.bytes f.entries ss) {mem : List Bool} {pos n : Nat}
    {stride : Int} (hin : pos + n ≤ mem.length) (h : ∀ s ∈ ss, ¬Column f.fileType s.flags) :
    readOne c f (.bools mem pos stride n) = some (ss.map fun s => allOf s.arr) := by
  have : (MaskArg.bools mem pos stride n).seen = some (some ((mem.drop pos).take n)) := if_pos hin
  unfold readOne
  rw [this]
  refine mapM_wrotes_mem _ _ hf (fun e s hs hw => ?_)
  show (if filtered f.fileType e.flags = true then _ else _) = _
  rw [hw.1, if_neg (fun x => h s hs ((filtered_iff _ _).mp x))]
  exact whole_wrote hc hw

/-- What is no array of bools is left out: all rows are read, of one file and of several. -/
theorem other_masks_ignored {c : Codec} (hc : c.Lawful) {f : MFile} {ss : List Source} (hf : Wrotes c f.bytes f.entries ss) :
    readOne c f .other = some (ss.map fun s => allOf s.arr) :=
  mapM_wrotes _ _ (fun _ _ h => whole_wrote hc h) hf

/-! ## Several files -/

theorem counted_eq {fancy : Option Bool} {m : List Bool} {f : MFile} (h : accepted fancy m f = true) {e : Entry} {es : List Entry}
    (he : f.entries = e :: es) : counted fancy m f = (m.take e.rows).count true := by
  unfold counted
  unfold accepted at h
  rw [he] at h ⊢
  simp only
  split
  · rename_i hk
    subst hk
    simp at h
    rw [h.2, List.take_length]
  · congr 1
    split
    · rw [List.take_length, List.take_of_length_le (by omega)]
    · rfl

/-- An array of several files: it is read if its rows are as many as those for which the rows of the mask were counted. -/
theorem entry_many {c : Codec} (hc : c.Lawful) {f : MFile} {e : Entry} {s : Source} (h : Wrote c f.bytes e s) {m : List Bool} {k : Nat}
    (hk : Column f.fileType s.flags → s.arr.dims ≠ [] → k = (m.take (s.arr.dims.headD 0)).count true) :
    entryMany c f (some (m, k)) e = some (wanted f.fileType m s) := by
  obtain ⟨hd, hi⟩ := wrote_dims h
  have hw := many_whole hc h
  obtain ⟨hfl, ok, z, bs, off, hb, hat, hn⟩ := h
  show (if filtered f.fileType e.flags = true then _ else _) = _
  unfold wanted
  rw [hfl]
  by_cases hcol : Column f.fileType s.flags
  · rw [if_pos ((filtered_iff _ _).mpr hcol), if_pos hcol]
    unfold rowsOf
    obtain ⟨⟨dims, item, data⟩, fl⟩ := s
    cases dims with
    | nil =>
      simp only at hd
      have : (shrink e.blk ⟨m, k⟩).dims = [] := by unfold shrink; rw [hd]; exact hd
      simp [this]
    | cons d ds =>
      simp only at hd hi ok hb hat hcol ⊢
      have hk := hk hcol (by simp)
      simp only [List.headD_cons] at hk
      have h3 := masked_multi hc z bs d ds item data ok off f.bytes hat m
      have hcd : (m.take d).count true ≤ d := by
        have h1 := List.count_le_length (a := true) (l := m.take d)
        rw [List.length_take] at h1; omega
      have hshr : shrink e.blk ⟨m, k⟩ = { (writeArr c z bs ⟨d :: ds, item, data⟩ off).1 with dims := (m.take d).count true :: ds } := by
        rw [hb, shrink_written c z bs d ds item data ok.dims off]
        simp only
        rw [hk, Nat.min_eq_left hcd]
      obtain ⟨h3, h4⟩ := h3
      unfold readMaskedMulti at h3
      simp only at h3
      rw [hb, hk] at hshr
      rw [hshr] at h3
      rw [hb, hk, hshr]
      have hitem : (writeArr c z bs ⟨d :: ds, item, data⟩ off).1.item = item := rfl
      simp only [hitem, Prod.mk.injEq] at h3 ⊢
      rw [if_neg (by simp)]
      obtain ⟨h3, _⟩ := h3
      split at h3
      · rename_i h0
        rw [if_pos h0, ← Option.some.inj h3]
        have h5 := h4
        rw [← Option.some.inj h3] at h5
        apply place_full
        rw [prod_cons, Nat.mul_assoc]
        exact h5
      · rename_i h0
        rw [if_neg h0, h3]
        apply place_full
        rw [h4, prod_cons, Nat.mul_assoc]
  · rw [if_neg (fun x => hcol ((filtered_iff _ _).mp x)), if_neg hcol]
    exact hw

theorem file_many {c : Codec} (hc : c.Lawful) {f : MFile} {ss : List Source} (hf : Wrotes c f.bytes f.entries ss) (hu : Uniform f.fileType ss)
    {fancy : Option Bool} {m : List Bool} (ha : accepted fancy m f = true) :
    f.entries.mapM (entryMany c f (some (m, counted fancy m f))) = some (ss.map (wanted f.fileType m)) := by
  cases hes : f.entries with
  | nil => rw [hes] at hf; cases hf; rfl
  | cons e es =>
    have hce := counted_eq ha hes
    rw [hes] at hf
    refine mapM_wrotes_mem _ _ hf (fun e' s hs hw => entry_many hc hw (fun hcol hd => ?_))
    rw [hce, hu s hs hcol hd]
    cases hf with
    | cons h t =>
      rw [List.headD_cons, Entry.rows, (wrote_dims h).1]

/-- A mask is accepted without `fancy`; else it must not be longer than the first array of any file, and as long if `fancy` is false. -/
theorem accepted_iff {c : Codec} {f : MFile} {ss : List Source} (hf : Wrotes c f.bytes f.entries ss) (fancy : Option Bool) (m : List Bool) :
    accepted fancy m f = true ↔ ∀ k, fancy = some k → ∀ r, firstRows ss = some r → if k then m.length ≤ r else m.length = r := by
  unfold accepted
  cases hes : f.entries with
  | nil =>
    rw [hes] at hf; cases hf
    cases fancy <;> simp [firstRows]
  | cons e es =>
    rw [hes] at hf
    cases hf with
    | cons h t =>
      have hr : e.rows = _ := congrArg (fun l : List Nat => l.headD 0) (wrote_dims h).1
      cases fancy with
      | none => simp
      | some k =>
        simp only [firstRows, hr, Option.some.injEq, forall_eq']
        cases k <;> simp <;> omega

theorem allowed_accepted {c : Codec} {fs : List MFile} {sss : List (List Source)} (hf : AllWrote c fs sss) {fancy : Option Bool} {m : List Bool}
    (h : Allowed fancy m.length sss) : ∀ f ∈ fs, accepted fancy m f = true := by
  induction hf with
  | nil => simp
  | cons hw t ih =>
    intro f hmem
    rcases List.mem_cons.mp hmem with rfl | hmem
    · exact (accepted_iff hw fancy m).mpr (fun k hk r hr => h k hk _ (by simp) r hr)
    · exact ih (fun k hk ss hs r hr => h k hk ss (by simp [hs]) r hr) f hmem

/-- **C143** for several files (partial: the mask lies in one piece, and the columns of a file have as many rows as its first array): if the length
of the mask is allowed, of every column of every file the rows at which the mask is set are read, of every other array all. -/
theorem several_files_partial {c : Codec} (hc : c.Lawful) {fs : List MFile} {sss : List (List Source)} (hf : AllWrote c fs sss)
    (hu : UniformAll fs sss) {mem : List Bool} {pos n : Nat} {m : List Bool} (hmask : (MaskArg.bools mem pos 1 n).Means m) (hn : 0 < n)
    {fancy : Option Bool} (ha : Allowed fancy n sss) :
    readMany c fs (.bools mem pos 1 n) fancy = .tables (wantedAll m fs sss) := by
  replace ha := allowed_accepted hf (hmask.1 ▸ ha)
  unfold readMany
  rw [seen_contiguous hmask hn]
  simp only
  rw [if_pos (List.all_eq_true.mpr ha)]
  have : fs.mapM (fun f => f.entries.mapM (entryMany c f (some (m, counted fancy m f)))) = some (wantedAll m fs sss) := by
    clear hmask
    induction hf with
    | nil => rfl
    | cons h t ih =>
      cases hu with
      | cons hu1 hu2 =>
        rw [List.mapM_cons, file_many hc h hu1 (ha _ (by simp)), ih hu2 (fun f hf => ha f (by simp [hf]))]
        rfl
  rw [this]

/-- A mask of another length is refused for several files. -/
theorem several_files_refused {c : Codec} {fs : List MFile} {mem : List Bool} {pos n : Nat} {m : List Bool} (hmask : (MaskArg.bools mem pos 1 n).Means m)
    (hn : 0 < n) {f : MFile} (hmem : f ∈ fs) {ss : List Source} (hf : Wrotes c f.bytes f.entries ss) {k : Bool} {r : Nat} (hr : firstRows ss = some r)
    (h : r < n ∨ (k = false ∧ r ≠ n)) : readMany c fs (.bools mem pos 1 n) (some k) = .error := by
  unfold readMany
  rw [seen_contiguous hmask hn]
  simp only
  rw [if_neg]
  intro ha
  have h1 := (accepted_iff hf (some k) m).mp (List.all_eq_true.mp ha f hmem) k rfl r hr
  rw [hmask.1] at h1
  rcases h with h | ⟨rfl, h⟩
  · cases k <;> simp at h1 <;> omega
  · simp at h1; omega

/-- What is no array of bools is left out for several files too, whatever `fancy` is. -/
theorem several_files_other_masks_ignored {c : Codec} (hc : c.Lawful) {fs : List MFile} {sss : List (List Source)} (hf : AllWrote c fs sss)
    (fancy : Option Bool) : readMany c fs .other fancy = .tables (sss.map fun ss => ss.map fun s => allOf s.arr) := by
  have : fs.mapM (fun f => f.entries.mapM (entryMany c f none)) = some (sss.map fun ss => ss.map fun s => allOf s.arr) := by
    induction hf with
    | nil => rfl
    | cons h t ih =>
      rw [List.mapM_cons, mapM_wrotes (entryMany c _ none) (fun s => allOf s.arr) (fun e s hw => many_whole hc hw) h, ih]
      rfl
  show (match fs.mapM (fun f => f.entries.mapM (entryMany c f none)) with | some l => Reply.tables l | none => .undefined) = _
  rw [this]

end Riptide.Sds.Masked
