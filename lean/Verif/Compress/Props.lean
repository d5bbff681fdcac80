import Verif.Compress.Model
/-! # C112: what is compressed in memory is what is decompressed

Compressing arrays or a byte string and decompressing the result gives what was compressed. -/
namespace Riptide.Compress
open Riptide.Sds (le unle le_length unle_le)

/-- What is asked of zstd: frames fit the room that was asked for, say how many bytes they hold, and hold them. -/
structure Zstd.Lawful (c : Zstd) : Prop where
  room : ∀ {v a : Nat} {l z : List Nat}, c.comp v a l = some z → z.length ≤ a
  size : ∀ {v a : Nat} {l z : List Nat}, c.comp v a l = some z → c.size z = some l.length
  back : ∀ {v a : Nat} {l z : List Nat}, c.comp v a l = some z → c.decomp z = some l
  fits : ∀ {v a : Nat} {l : List Nat}, c.bound l.length ≤ a → v ≤ 22 → (c.comp v a l).isSome
  bound : ∀ n, n < 2 ^ 62 → c.bound n < 2 ^ 63

/-- An array with one dimension as numpy can make it: as many bytes as items take, a type number of one byte. -/
structure Flat (a : Arr) (n : Nat) : Prop where
  dims : a.dims = [n]
  bytes : a.data.length = n * a.item
  dtype : a.dtype < 128
  item : a.item < 2 ^ 31
  item_pos : 0 < a.item
  small : n * a.item < 2 ^ 62

/-- A new array with the same type, shape and bytes. -/
def Arr.fresh (a : Arr) : Arr := { a with flags := 0 }

theorem level_small (v : Int) : levelOf v ≤ 22 := by
  unfold levelOf; dsimp only; split <;> split <;> omega

theorem bytes_length (e : Env) (n : Nat) : (e.bytes n).length = n := by simp [Env.bytes]

theorem mid {A B C : List Nat} {i j : Nat} (hi : A.length = i) (hj : B.length = j) : ((A ++ (B ++ C)).drop i).take j = B := by
  rw [List.drop_left' hi, List.take_left' hj]

theorem header_flat (e : Env) {a : Arr} {n : Nat} (h : a.dims = [n]) (k : Nat) : header e a k =
    [253, 1, a.dtype % 256, 1] ++ (le 4 a.item ++ (le 4 a.flags ++ (e.bytes 4 ++ (le 8 n ++ (e.bytes 16 ++ (le 8 k ++ e.bytes 8)))))) := by
  unfold header
  rw [h]
  simp

theorem header_length (e : Env) {a : Arr} {n : Nat} (h : a.dims = [n]) (k : Nat) : (header e a k).length = headerLen := by
  rw [header_flat e h]
  simp [le_length, bytes_length, headerLen]

theorem count_flat (n : Nat) : count [n] = n := by simp [count]

/-- The header of an array gives back its type, its item size and its dimension. -/
theorem unheader_header (e : Env) {a : Arr} {n k : Nat} (h : Flat a n) (hk : k < 2 ^ 63) (z : List Nat) :
    (unheader (header e a k ++ z)).1.dtype = a.dtype ∧ (unheader (header e a k ++ z)).1.item = a.item ∧
    (unheader (header e a k ++ z)).1.dims = [n] ∧ (unheader (header e a k ++ z)).2 = k ∧ (header e a k ++ z).getD 3 0 = 1 := by
  have hd := header_flat e h.dims k
  have hn : n < 2 ^ 62 := by
    have h1 := Nat.le_mul_of_pos_right n h.item_pos
    have h2 := h.small
    omega
  have h3 : (header e a k ++ z).getD 3 0 = 1 := by rw [hd]; rfl
  refine ⟨?_, ?_, ?_, ?_, h3⟩
  · show (header e a k ++ z).getD 2 0 = a.dtype
    rw [hd]
    have := h.dtype
    show a.dtype % 256 = _
    omega
  · show unle (((header e a k ++ z).drop 4).take 4) = a.item
    rw [hd, List.append_assoc, List.append_assoc, mid (i := 4) (A := [253, 1, a.dtype % 256, 1]) rfl (le_length 4 _)]
    exact unle_le 4 _ (Nat.lt_trans h.item (by decide))
  · show (List.range ((header e a k ++ z).getD 3 0)).map _ = _
    rw [h3]
    have h4 : ((header e a k ++ z).drop 16).take 8 = le 8 n := by
      rw [hd]
      have : ∀ A B C D E : List Nat, A ++ (B ++ (C ++ (D ++ E))) ++ z = (A ++ B ++ C ++ D) ++ (E ++ z) := by
        intros; simp only [List.append_assoc]
      rw [this, List.append_assoc (le 8 n)]
      exact mid (by simp [le_length, bytes_length]) (le_length 8 n)
    show [unle (((header e a k ++ z).drop 16).take 8)] = [n]
    rw [h4, unle_le 8 n (by omega)]
  · show unle (((header e a k ++ z).drop 40).take 8) = k
    have h4 : ((header e a k ++ z).drop 40).take 8 = le 8 k := by
      rw [hd]
      have : ∀ A B C D E F G : List Nat, A ++ (B ++ (C ++ (D ++ (E ++ (F ++ G))))) ++ z = (A ++ B ++ C ++ D ++ E ++ F) ++ (G ++ z) := by
        intros; simp only [List.append_assoc]
      rw [this, List.append_assoc (le 8 k)]
      exact mid (by simp [le_length, bytes_length]) (le_length 8 k)
    rw [h4, unle_le 8 k (by omega)]

/-- The bytes of one compressed array can be opened: type, item size and dimension are those of the array, and the frame is the one which was
written. -/
theorem open_item {c : Zstd} {e : Env} {a : Arr} {n m : Nat} {z : List Nat} (h : Flat a n) (hz : z.length < 2 ^ 63)
    (hs : c.size z = some m) : ∃ a', openOne c (some (header e a z.length ++ z)) = .ok (a', m, z) ∧ a'.fresh = { a.fresh with data := [] } := by
  obtain ⟨h1, h2, h3, h4, h5⟩ := unheader_header e h hz z
  have hl := header_length e h.dims z.length
  refine ⟨(unheader (header e a z.length ++ z)).1, ?_, ?_⟩
  · unfold openOne
    dsimp only
    have hd := h.dtype
    have hi := h.item
    rw [if_neg (by rw [List.length_append, hl]; omega), if_neg (by rw [List.length_append, hl, h1, h2, h4, h5]; omega), h4,
      List.drop_left' hl, List.take_length, hs]
  · unfold Arr.fresh
    have h6 : (unheader (header e a z.length ++ z)).1.data = [] := rfl
    rw [h1, h2, h3, h6, h.dims]

theorem decompress_item {c : Zstd} {a a' : Arr} {n m : Nat} {z : List Nat} (h : Flat a n) (hn : 0 < n)
    (ha : a'.fresh = { a.fresh with data := [] }) (hm : m = a.data.length) (hd : c.decomp z = some a.data) :
    decompressOne c (a', m, z) = .ok a.fresh := by
  have h1 : a'.dims = [n] := by have := congrArg Arr.dims ha; rw [← h.dims]; exact this
  have h2 : a'.item = a.item := by have := congrArg Arr.item ha; exact this
  have h3 : a'.dtype = a.dtype := by have := congrArg Arr.dtype ha; exact this
  have hb := h.bytes
  have hp := Nat.mul_pos hn h.item_pos
  unfold decompressOne
  dsimp only
  rw [h1, count_flat, h2, if_neg (by omega), if_neg (by omega), hd]
  dsimp only
  rw [if_neg (by omega), if_neg (by omega)]
  unfold Arr.fresh
  rw [h.dims, h3]

/-- One array is compressed to its header and a frame, if there is memory. -/
theorem compress_item {c : Zstd} (hc : c.Lawful) {e : Env} (he : ∀ t, e.memory t = true) {a : Arr} {n v : Nat} (h : Flat a n) (hv : v ≤ 22)
    (t : Nat) : ∃ z, compressItem c e v t (some a) = .ok (some (header e a z.length ++ z)) ∧ z.length < 2 ^ 63 ∧
      c.size z = some a.data.length ∧ c.decomp z = some a.data := by
  have hl : a.data.take (count a.dims * a.item) = a.data := by rw [h.dims, count_flat, ← h.bytes, List.take_length]
  have hb : count a.dims * a.item = a.data.length := by rw [h.dims, count_flat, h.bytes]
  have hf := hc.fits (v := v) (a := c.bound a.data.length) (l := a.data) (Nat.le_refl _) hv
  obtain ⟨z, hz⟩ := Option.isSome_iff_exists.mp hf
  refine ⟨z, ?_, ?_, hc.size hz, hc.back hz⟩
  · show compressOne c e t v a = _
    unfold compressOne compressData
    rw [he, hl, hb]
    simp only [Bool.not_true, Bool.and_false, Bool.false_eq_true, if_false, hz, hc.size hz]
  · have := hc.room hz
    have := hc.bound a.data.length (by rw [h.bytes]; exact h.small)
    omega

theorem compress_list {c : Zstd} (hc : c.Lawful) {e : Env} (he : ∀ t, e.memory t = true) {n v : Nat} (hv : v ≤ 22) :
    ∀ (xs : List Arr) (t : Nat), (∀ a ∈ xs, Flat a n) → ∃ zs : List (List Nat), zs.length = xs.length ∧
      allRes (compressItem c e v) t (xs.map some) = .ok (List.zipWith (fun a z => some (header e a z.length ++ z)) xs zs) ∧
      (∀ p ∈ xs.zip zs, p.2.length < 2 ^ 63 ∧ c.size p.2 = some p.1.data.length ∧ c.decomp p.2 = some p.1.data)
  | [], t, _ => ⟨[], rfl, rfl, by simp⟩
  | a :: xs, t, h => by
    obtain ⟨z, h1, h2⟩ := compress_item hc he (h a (by simp)) hv t
    obtain ⟨zs, h3, h4, h5⟩ := compress_list hc he hv xs (t + 1) (fun b hb => h b (by simp [hb]))
    refine ⟨z :: zs, by simp [h3], ?_, ?_⟩
    · show allRes (compressItem c e v) t (some a :: xs.map some) = _
      rw [allRes, h1]
      dsimp only
      rw [h4]
      rfl
    · intro p hp
      rw [List.zip_cons_cons] at hp
      rcases List.mem_cons.mp hp with rfl | hp
      · exact h2
      · exact h5 p hp

theorem open_list {c : Zstd} {e : Env} {n : Nat} : ∀ (xs : List Arr) (zs : List (List Nat)) (t : Nat), (∀ a ∈ xs, Flat a n) →
    zs.length = xs.length →
    (∀ p ∈ xs.zip zs, p.2.length < 2 ^ 63 ∧ c.size p.2 = some p.1.data.length ∧ c.decomp p.2 = some p.1.data) →
    ∃ ps, allRes (fun _ => openOne c) t (List.zipWith (fun a z => some (header e a z.length ++ z)) xs zs) = .ok ps ∧
      (0 < n → joinRes (ps.map (decompressOne c)) = .ok (xs.map Arr.fresh)) ∧
      (n = 0 → xs ≠ [] → joinRes (ps.map (decompressOne c)) = .err)
  | [], zs, t, _, hl, _ => ⟨[], by simp [allRes], fun _ => rfl, fun _ h => absurd rfl h⟩
  | a :: xs, [], t, _, hl, _ => by simp at hl
  | a :: xs, z :: zs, t, h, hl, hz => by
    obtain ⟨ps, h1, h2, h3⟩ := open_list (c := c) (e := e) xs zs (t + 1) (fun b hb => h b (by simp [hb])) (by simpa using hl)
      (fun p hp => hz p (by rw [List.zip_cons_cons]; exact List.mem_cons_of_mem _ hp))
    obtain ⟨z1, z2, z3⟩ := hz (a, z) (by simp)
    obtain ⟨a', o1, o2⟩ := open_item (c := c) (e := e) (h a (by simp)) z1 z2
    refine ⟨(a', a.data.length, z) :: ps, ?_, ?_, ?_⟩
    · show allRes (fun _ => openOne c) t (some (header e a z.length ++ z) :: _) = _
      rw [allRes, o1]
      dsimp only
      rw [h1]
    · intro hn
      show joinRes (decompressOne c (a', a.data.length, z) :: ps.map (decompressOne c)) = _
      rw [decompress_item (h a (by simp)) hn o2 rfl z3, joinRes, h2 hn]
      rfl
    · intro hn _
      have hb := (h a (by simp)).bytes
      rw [hn, Nat.zero_mul] at hb
      have hd : decompressOne c (a', a.data.length, z) = .err := by
        unfold decompressOne
        rw [if_pos hb]
      show joinRes (decompressOne c (a', a.data.length, z) :: ps.map (decompressOne c)) = _
      rw [hd, joinRes]
      cases xs with
      | nil =>
        cases zs with
        | nil => simp [allRes] at h1; rw [h1]; rfl
        | cons _ _ => simp at hl
      | cons b xs => rw [h3 hn (by simp)]

theorem same_rows {n : Nat} {xs : List Arr} (h : ∀ a ∈ xs, Flat a n) : sameRows (xs.map some) = true := by
  unfold sameRows
  rw [Bool.and_eq_true, List.all_eq_true, List.all_eq_true]
  refine ⟨?_, ?_⟩
  · intro x hx
    obtain ⟨a, ha, rfl⟩ := List.mem_map.mp hx
    simp [(h a ha).dims]
  · intro x hx
    obtain ⟨a, ha, rfl⟩ := List.mem_map.mp hx
    cases xs with
    | nil => simp at ha
    | cons b xs => simp [(h a ha).dims, (h b (by simp)).dims]

/-- **C112.** Arrays with one dimension and the same number of rows, which is not 0, are decompressed as they were compressed: any number of
arrays, any types, any level, with and without checksums.  Missing: arrays without rows (`round_trip_empty_fails`), arrays with
more dimensions or different numbers of rows, which are refused (`compress_refused`). -/
theorem round_trip_partial {c : Zstd} (hc : c.Lawful) {e : Env} (he : ∀ t, e.memory t = true) (level : Int) {n : Nat} (hn : 0 < n)
    {xs : List Arr} (h : ∀ a ∈ xs, Flat a n) :
    ∃ zs, compressArrays c e level (xs.map some) = .ok zs ∧ decompressArrays c zs = .ok (xs.map Arr.fresh) := by
  obtain ⟨zs, h1, h2, h3⟩ := compress_list hc he (level_small level) xs 0 h
  obtain ⟨ps, h4, h5, _⟩ := open_list (c := c) (e := e) xs zs 0 h h1 h3
  refine ⟨List.zipWith (fun a z => some (header e a z.length ++ z)) xs zs, ?_, ?_⟩
  · unfold compressArrays
    rw [if_pos (same_rows h), if_neg (by simp), h2]
  · unfold decompressArrays
    rw [h4]
    exact h5 hn

/-- Arrays without rows are compressed, but the result cannot be decompressed: whatever zstd does, an exception is set. -/
theorem round_trip_empty_fails {c : Zstd} (hc : c.Lawful) {e : Env} (he : ∀ t, e.memory t = true) (level : Int)
    {xs : List Arr} (h : ∀ a ∈ xs, Flat a 0) (hx : xs ≠ []) :
    ∃ zs, compressArrays c e level (xs.map some) = .ok zs ∧ decompressArrays c zs = .err := by
  obtain ⟨zs, h1, h2, h3⟩ := compress_list hc he (level_small level) xs 0 h
  obtain ⟨ps, h4, _, h5⟩ := open_list (c := c) (e := e) xs zs 0 h h1 h3
  refine ⟨List.zipWith (fun a z => some (header e a z.length ++ z)) xs zs, ?_, ?_⟩
  · unfold compressArrays
    rw [if_pos (same_rows h), if_neg (by simp), h2]
  · unfold decompressArrays
    rw [h4]
    exact h5 rfl hx

/-- Arrays which do not all have the same number of rows are refused, although each is compressed on its own. -/
theorem compress_refused (c : Zstd) (e : Env) (level : Int) {xs : List (Option Arr)} {a b : Arr} (ha : some a ∈ xs) (hb : some b ∈ xs)
    (h : count a.dims ≠ count b.dims) : compressArrays c e level xs = .err := by
  unfold compressArrays
  rw [if_neg]
  intro hs
  unfold sameRows at hs
  rw [Bool.and_eq_true, List.all_eq_true, List.all_eq_true] at hs
  have h1 := hs.2 _ ha
  have h2 := hs.2 _ hb
  simp only [beq_iff_eq] at h1 h2
  exact h (h1.trans h2.symm)

/-- So are arrays with any other number of dimensions than one. -/
theorem compress_dims_refused (c : Zstd) (e : Env) (level : Int) {xs : List (Option Arr)} {a : Arr} (ha : some a ∈ xs)
    (h : a.dims.length ≠ 1) : compressArrays c e level xs = .err := by
  unfold compressArrays
  rw [if_neg]
  intro hs
  unfold sameRows at hs
  rw [Bool.and_eq_true, List.all_eq_true] at hs
  have h1 := hs.1 _ ha
  simp only [beq_iff_eq] at h1
  exact h h1

/-- `None` next to arrays without rows passes all checks and is read through a null pointer. -/
theorem compress_none_ub (c : Zstd) (e : Env) (level : Int) : compressArrays c e level [none] = .ub := rfl

theorem pick_zip {α β γ : Type} (f : α → β → γ) {xs : List α} {zs : List β} (hl : zs.length = xs.length) :
    ∀ is : List Nat, (∀ i ∈ is, i < xs.length) →
      is.filterMap ((List.zipWith f xs zs)[·]?) = List.zipWith f (is.filterMap (xs[·]?)) (is.filterMap (zs[·]?)) ∧
      (is.filterMap (zs[·]?)).length = (is.filterMap (xs[·]?)).length ∧
      ∀ p ∈ (is.filterMap (xs[·]?)).zip (is.filterMap (zs[·]?)), p ∈ xs.zip zs := by
  intro is
  induction is with
  | nil => intro _; exact ⟨rfl, rfl, by simp⟩
  | cons i is ih =>
    intro hi
    have hx : i < xs.length := hi i (by simp)
    have hz : i < zs.length := by omega
    obtain ⟨k1, k2, k3⟩ := ih (fun j hj => hi j (by simp [hj]))
    have e1 : xs[i]? = some xs[i] := List.getElem?_eq_getElem hx
    have e2 : zs[i]? = some zs[i] := List.getElem?_eq_getElem hz
    have e3 : (List.zipWith f xs zs)[i]? = some (f xs[i] zs[i]) := by rw [List.getElem?_zipWith, e1, e2]
    rw [List.filterMap_cons_some (f := (xs[·]?)) e1, List.filterMap_cons_some (f := (zs[·]?)) e2,
      List.filterMap_cons_some (f := ((List.zipWith f xs zs)[·]?)) e3, k1]
    refine ⟨rfl, by simp [k2], ?_⟩
    intro p hp
    rw [List.zip_cons_cons] at hp
    rcases List.mem_cons.mp hp with rfl | hp
    · rw [List.mem_iff_getElem]
      exact ⟨i, by simp; omega, by simp⟩
    · exact k3 p hp

/-- What an array is decompressed to does not depend on the other arrays: any part of the results of a call can be decompressed
on its own, in any order. -/
theorem decompress_parts {c : Zstd} (hc : c.Lawful) {e : Env} (he : ∀ t, e.memory t = true) (level : Int) {n : Nat} (hn : 0 < n)
    {xs : List Arr} (h : ∀ a ∈ xs, Flat a n) : ∃ zs, compressArrays c e level (xs.map some) = .ok zs ∧ zs.length = xs.length ∧
      ∀ is : List Nat, (∀ i ∈ is, i < xs.length) →
        decompressArrays c (is.filterMap (zs[·]?)) = .ok ((is.filterMap (xs[·]?)).map Arr.fresh) := by
  obtain ⟨zs, h1, h2, h3⟩ := compress_list hc he (level_small level) xs 0 h
  refine ⟨List.zipWith (fun a z => some (header e a z.length ++ z)) xs zs, ?_, by simp [h1], ?_⟩
  · unfold compressArrays
    rw [if_pos (same_rows h), if_neg (by simp), h2]
  · intro is hi
    obtain ⟨k1, k2, k3⟩ := pick_zip (fun a z => some (header e a z.length ++ z)) h1 is hi
    have hf : ∀ a ∈ is.filterMap (xs[·]?), Flat a n := by
      intro a ha
      obtain ⟨i, _, hi⟩ := List.mem_filterMap.mp ha
      exact h a (List.mem_of_getElem? hi)
    obtain ⟨ps, h4, h5, _⟩ := open_list (c := c) (e := e) _ _ 0 hf k2 (fun p hp => h3 p (k3 p hp))
    rw [k1]
    unfold decompressArrays
    rw [h4]
    exact h5 hn

theorem joinRes_ok {β : Type} : ∀ (l : List (Res β)) (bs : List β), joinRes l = .ok bs → l = bs.map Res.ok
  | [], bs, h => by cases h; rfl
  | .ub :: _, _, h => by rw [joinRes] at h; cases h
  | .err :: l, _, h => by
    rw [joinRes] at h
    cases hl : joinRes l <;> rw [hl] at h <;> cases h
  | .ok b :: l, bs, h => by
    rw [joinRes] at h
    cases hl : joinRes l with
    | ub => rw [hl] at h; cases h
    | err => rw [hl] at h; cases h
    | ok cs =>
      rw [hl] at h
      cases h
      rw [joinRes_ok l cs hl]
      rfl

theorem allRes_ok {α β : Type} {f : α → Res β} : ∀ (l : List α) (t : Nat) (bs : List β), allRes (fun _ => f) t l = .ok bs → l.map f = bs.map Res.ok
  | [], _, bs, h => by cases h; rfl
  | a :: l, t, bs, h => by
    rw [allRes] at h
    cases ha : f a with
    | ub => rw [ha] at h; cases h
    | err => rw [ha] at h; cases h
    | ok b =>
      rw [ha] at h
      dsimp only at h
      cases hl : allRes (fun _ => f) (t + 1) l with
      | ub => rw [hl] at h; cases h
      | err => rw [hl] at h; cases h
      | ok cs =>
        rw [hl] at h
        cases h
        rw [List.map_cons, List.map_cons, ha, allRes_ok l (t + 1) cs hl]

/-- A call which returns arrays returns one for each input, and each is what its input alone gives: no error of any of them is lost. -/
theorem decompress_each {c : Zstd} {xs : List (Option (List Nat))} {ys : List Arr} (h : decompressArrays c xs = .ok ys) :
    ys.length = xs.length ∧ ∀ (i : Nat) (hx : i < xs.length) (hy : i < ys.length), decompressArrays c [xs[i]] = .ok [ys[i]] := by
  unfold decompressArrays at h
  cases hp : allRes (fun _ => openOne c) 0 xs with
  | ub => rw [hp] at h; cases h
  | err => rw [hp] at h; cases h
  | ok ps =>
    rw [hp] at h
    have h1 := allRes_ok xs 0 ps hp
    have h2 := joinRes_ok _ _ h
    have l1 : xs.length = ps.length := by simpa using congrArg List.length h1
    have l2 : ps.length = ys.length := by simpa using congrArg List.length h2
    refine ⟨by omega, ?_⟩
    intro i hx hy
    have hi : i < ps.length := by omega
    have e1 : openOne c xs[i] = .ok ps[i] := by
      have := congrArg (fun l : List _ => l[i]?) h1
      simpa [hx, hi] using this
    have e2 : decompressOne c ps[i] = .ok ys[i] := by
      have := congrArg (fun l : List _ => l[i]?) h2
      simpa [hy, hi] using this
    unfold decompressArrays
    simp [allRes, joinRes, e1, e2]

/-- Without memory for a context the number of an error is taken for a length: the frame is 64 bytes which nobody has written, and where
they happen to be a frame themselves this is what is returned. -/
theorem no_memory_wrong (c : Zstd) {e : Env} (hk : e.checksum = true) {t v : Nat} (hm : e.memory t = false) (a : Arr) {m : Nat}
    (hs : c.size (e.bytes 64) = some m) :
    compressItem c e v t (some a) = .ok (some (header e a 64 ++ e.bytes 64)) := by
  show compressOne c e t v a = _
  unfold compressOne compressData
  rw [hk, hm]
  simp only [Bool.not_false, Bool.and_true, if_true, memoryError, hs, bytes_length]

/-! ### Byte strings -/

/-- A byte string which is not empty is decompressed as it was compressed. -/
theorem string_round_trip_partial {c : Zstd} (hc : c.Lawful) {e : Env} (he : e.memory 0 = true) (level : Int) {l : List Nat} (hl : l ≠ []) :
    ∃ z, compressString c e level l = .ok z ∧ decompressString c z = .ok l := by
  have h0 : l.length ≠ 0 := by rw [ne_eq, List.length_eq_zero_iff]; exact hl
  obtain ⟨z, hz⟩ := Option.isSome_iff_exists.mp (hc.fits (v := levelOf level) (a := c.bound l.length) (l := l) (Nat.le_refl _) (level_small level))
  refine ⟨z, ?_, ?_⟩
  · unfold compressString compressData
    rw [if_neg h0, he]
    simp only [Bool.not_true, Bool.and_false, Bool.false_eq_true, if_false, hz]
  · unfold decompressString
    rw [hc.size hz]
    dsimp only
    rw [if_neg h0, hc.back hz]
    dsimp only
    rw [if_neg (by simp)]

/-- The empty byte string is never what is decompressed. -/
theorem string_never_empty (c : Zstd) (z : List Nat) : decompressString c z ≠ .ok [] := by
  unfold decompressString
  split
  · nofun
  · split
    · nofun
    · split
      · nofun
      · split
        · nofun
        · intro h
          have h1 := Res.ok.inj h
          subst h1
          simp_all

/-- What the empty byte string is compressed to is memory which nobody has written: two calls can give different results. -/
theorem string_empty_unwritten (c : Zstd) (hb : 0 < c.bound 0) (level : Int) :
    ∃ e e' : Env, compressString c e level [] ≠ compressString c e' level [] := by
  refine ⟨⟨fun _ => true, true, fun _ => 0⟩, ⟨fun _ => true, true, fun _ => 1⟩, ?_⟩
  unfold compressString
  simp only [List.length_nil, if_true]
  intro h
  have h1 := Res.ok.inj h
  unfold Env.bytes at h1
  have h2 := congrArg List.head? h1
  rw [List.head?_map, List.head?_map, List.head?_range, if_neg (by omega)] at h2
  simp at h2

/-! ### Cases -/

/-- A codec which writes the length in one byte before the bytes. -/
def toy : Zstd where
  comp := fun _ a l => if l.length + 1 ≤ a then some (l.length :: l) else none
  size := fun z => match z with | [] => none | n :: _ => some n
  decomp := fun z => match z with | [] => none | n :: l => if l.length = n then some l else none
  bound := fun n => n + 1

theorem toy_lawful : toy.Lawful where
  room := by
    intro v a l z h
    simp only [toy] at h
    split at h
    · rw [← Option.some.inj h]; simpa
    · cases h
  size := by
    intro v a l z h
    simp only [toy] at h
    split at h
    · rw [← Option.some.inj h]; rfl
    · cases h
  back := by
    intro v a l z h
    simp only [toy] at h
    split at h
    · rw [← Option.some.inj h]; simp [toy]
    · cases h
  fits := by
    intro v a l h _
    simp only [toy] at h ⊢
    rw [if_pos h]; rfl
  bound := by intro n h; simp only [toy]; omega

def env : Env := ⟨fun _ => true, true, fun i => i + 7⟩
def arrA : Arr := ⟨3, 2, 1281, [3], [1, 2, 3, 4, 5, 6]⟩
def arrB : Arr := ⟨18, 1, 1281, [3], [65, 66, 67]⟩
def arrE : Arr := ⟨3, 2, 1281, [0], []⟩

theorem flatA : Flat arrA 3 := ⟨rfl, rfl, by decide, by decide, by decide, by decide⟩
theorem flatB : Flat arrB 3 := ⟨rfl, rfl, by decide, by decide, by decide, by decide⟩
theorem flatE : Flat arrE 0 := ⟨rfl, rfl, by decide, by decide, by decide, by decide⟩

example : ∃ zs, compressArrays toy env 5 ([arrA, arrB].map some) = .ok zs ∧ decompressArrays toy zs = .ok [arrA.fresh, arrB.fresh] :=
  round_trip_partial toy_lawful (fun _ => rfl) 5 (n := 3) (by decide) (by simp [flatA, flatB])
example : ∃ zs, compressArrays toy env 5 ([arrE].map some) = .ok zs ∧ decompressArrays toy zs = .err :=
  round_trip_empty_fails toy_lawful (fun _ => rfl) 5 (by simp [flatE]) (by simp)
example : compressArrays toy env 5 [some arrA, some arrE] = .err :=
  compress_refused toy env 5 (a := arrA) (b := arrE) (by simp) (by simp) (by decide)
example : compressArrays toy env 5 [some arrA, some { arrB with dims := [1, 3] }] = .err :=
  compress_dims_refused toy env 5 (a := { arrB with dims := [1, 3] }) (by simp) (by decide)
example : ∃ z, compressString toy env 5 [1, 2, 3] = .ok z ∧ decompressString toy z = .ok [1, 2, 3] :=
  string_round_trip_partial toy_lawful rfl 5 (by simp)
example : toy.size ({ env with memory := fun _ => false }.bytes 64) = some 7 := by decide
example : 0 < toy.bound 0 := by decide
/-- The very bytes which an array is compressed to: the header of 56 bytes, then the frame. -/
example : compressArrays toy { env with junk := fun _ => 0 } 5 [some arrA] = .ok [some ([253, 1, 3, 1, 2, 0, 0, 0, 1, 5, 0, 0, 0, 0, 0, 0,
    3, 0, 0, 0, 0, 0, 0, 0] ++ List.replicate 16 0 ++ [7, 0, 0, 0, 0, 0, 0, 0] ++ List.replicate 8 0 ++ [6, 1, 2, 3, 4, 5, 6])] := by
  decide +kernel
/-- More than three dimensions: three are written, as FillInNumpyHeader says. -/
example : (header { env with junk := fun _ => 0 } { arrA with dims := [1, 2, 3, 4] } 9).take 4 = [253, 1, 3, 3] ∧
    (unheader (header env { arrA with dims := [1, 2, 3, 4] } 9)).1.dims = [1, 2, 3] := by decide +kernel
/-- A header which claims fewer items than the frame holds: the frame is written behind the end of the array. -/
example : decompressArrays toy [some (header env { arrA with dims := [2] } 7 ++ [6, 1, 2, 3, 4, 5, 6])] = .ub := by decide +kernel
/-- A frame whose bytes were damaged, and one which is cut off. -/
example : decompressArrays toy [some (header env arrA 6 ++ [6, 1, 2, 3, 4, 5])] = .err := by decide +kernel
example : decompressArrays toy [some (header env arrA 7 ++ [6, 1, 2, 3, 4, 5])] = .ub := by decide +kernel
example : decompressArrays toy [some [253, 1]] = .ub := by decide +kernel
example : decompressArrays toy [some (header env arrA 7 ++ [6, 1, 2, 3, 4, 5, 6]), some (header env arrA 6 ++ [6, 1, 2, 3, 4, 5])] = .err := by decide +kernel
example : decompressArrays toy [none] = .ub := by decide +kernel
example : levelOf (-4) = 3 ∧ levelOf 0 = 3 ∧ levelOf 1 = 1 ∧ levelOf 22 = 22 ∧ levelOf 23 = 22 := by decide

end Riptide.Compress
