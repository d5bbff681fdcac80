import Verif.Unary.Model
/-! Which rows are computed by registers, and what is written. -/
namespace Riptide.Unary
open Riptide.Work Riptide.Binary

theorem vecLoop_map {α β : Type} {vec : List α → List β} {v : α → β} {w : Nat}
    (hv : ∀ l : List α, l.length = w → vec l = l.map v) :
    ∀ (k : Nat) (xs : List α), w * k ≤ xs.length → vecLoop vec w k xs = (xs.take (w * k)).map v
  | 0, xs, _ => by simp [vecLoop]
  | k + 1, xs, h => by
    have h' : w + w * k ≤ xs.length := by rw [Nat.mul_succ] at h; omega
    rw [vecLoop, hv _ (by simp; omega), vecLoop_map hv k (xs.drop w) (by simp; omega), ← List.map_append]
    congr 1
    rw [Nat.mul_succ, Nat.add_comm (w * k) w, List.take_add]

/-- Number of rows of a call which are computed by registers. -/
def wideRows (w : Nat) (wide : Bool) (n : Nat) : Nat := if wide then w * (n / w) else 0

theorem wideRows_le (w : Nat) (wide : Bool) (n : Nat) : wideRows w wide n ≤ n := by
  unfold wideRows
  split
  · exact Nat.mul_div_le n w
  · omega

/-- The rows of a call. -/
def outRows {α β : Type} (v s : α → β) (m : Nat) (xs : List α) : List β := (xs.take m).map v ++ (xs.drop m).map s

theorem outRows_length {α β : Type} (v s : α → β) (m : Nat) (xs : List α) : (outRows v s m xs).length = xs.length := by
  simp [outRows]; omega

theorem outRows_getElem? {α β : Type} (v s : α → β) (m : Nat) (xs : List α) (i : Nat) :
    (outRows v s m xs)[i]? = xs[i]?.map (if i < m then v else s) := by
  unfold outRows
  by_cases h : i < m
  · by_cases hx : i < xs.length
    · rw [List.getElem?_append_left (by simp; omega)]
      simp [h]
    · rw [List.getElem?_eq_none (by simp; omega), List.getElem?_eq_none (by omega)]; rfl
  · by_cases hx : i < xs.length
    · rw [List.getElem?_append_right (by simp; omega)]
      have e1 : min m xs.length = m := by omega
      rw [List.length_map, List.length_take, e1, List.getElem?_map, List.getElem?_drop, show m + (i - m) = i by omega, if_neg h]
    · rw [List.getElem?_eq_none (by simp; omega), List.getElem?_eq_none (by omega)]; rfl

theorem outRows_same {α β : Type} (v s : α → β) (m : Nat) (xs : List α) (h : ∀ x ∈ xs, v x = s x) : outRows v s m xs = xs.map s := by
  apply List.ext_getElem?
  intro i
  rw [outRows_getElem?, List.getElem?_map]
  by_cases hi : i < xs.length
  · rw [List.getElem?_eq_getElem hi]
    simp only [Option.map_some]
    split
    · rw [h _ (List.getElem_mem hi)]
    · rfl
  · rw [List.getElem?_eq_none (by omega)]; rfl

theorem fastCall_eq {α β : Type} {vec : List α → List β} {s : α → Option β} {v g : α → β} {w : Nat}
    (hv : ∀ l : List α, l.length = w → vec l = l.map v) (wide : Bool) (xs : List α) (hs : ∀ x ∈ xs, s x = some (g x)) :
    fastCall vec s w wide xs = some (outRows v g (wideRows w wide xs.length) xs) := by
  unfold fastCall
  by_cases h : wide = true ∧ w ≤ xs.length
  · rw [if_pos (by simp [h.1, h.2])]
    rw [mapM_some s g _ (fun a ha => hs a (List.mem_of_mem_drop ha)), vecLoop_map hv _ _ (Nat.mul_div_le _ _)]
    simp [outRows, wideRows, h.1]
  · rw [if_neg (by simpa using h), mapM_some s g _ hs]
    have : wideRows w wide xs.length = 0 := by
      unfold wideRows
      split
      · have : ¬ w ≤ xs.length := fun hh => h ⟨by assumption, hh⟩
        rw [Nat.div_eq_of_lt (by omega), Nat.mul_zero]
      · rfl
    simp [outRows, this]

theorem mapM_none {α β : Type} (f : α → Option β) (l : List α) {a : α} (ha : a ∈ l) (h : f a = none) : l.mapM f = none := by
  induction l with
  | nil => simp at ha
  | cons b l ih =>
    rw [List.mapM_cons]
    rcases List.mem_cons.1 ha with rfl | ha
    · rw [h]; rfl
    · rw [ih ha]; cases f b <;> rfl

theorem fastCall_none {α β : Type} (vec : List α → List β) {s : α → Option β} {w : Nat} (wide : Bool) (xs : List α) {i : Nat}
    (hi : i < xs.length) (hw : wideRows w wide xs.length ≤ i) (h : s xs[i] = none) : fastCall vec s w wide xs = none := by
  unfold fastCall
  split
  · next hc =>
    have hwide : wide = true := by simp at hc; exact hc.1
    have e : wideRows w wide xs.length = w * (xs.length / w) := by simp [wideRows, hwide]
    rw [e] at hw
    rw [mapM_none s _ (a := xs[i]) _ h]
    · rfl
    · rw [List.mem_iff_getElem]
      refine ⟨i - w * (xs.length / w), by simp; omega, ?_⟩
      rw [List.getElem_drop]
      congr 1; omega
  · exact mapM_none s xs (List.getElem_mem hi) h

/-- A block of the schedule starts at a multiple of `w`, and it is a multiple of `w` or the end. -/
theorem wideRows_block {w : Nat} (hw : 0 < w) (wide : Bool) {n start len k : Nat} (hs : w ∣ start) (hl : start + len ≤ n)
    (he : w ∣ len ∨ start + len = n) (hk : k < len) : k < wideRows w wide len ↔ start + k < wideRows w wide n := by
  unfold wideRows
  cases wide
  · simp
  · simp only [if_true]
    obtain ⟨c, rfl⟩ := hs
    rcases he with ⟨d, rfl⟩ | he
    · rw [Nat.mul_div_cancel_left _ hw]
      have : c + d ≤ n / w := (Nat.le_div_iff_mul_le hw).2 (by rw [Nat.add_mul, Nat.mul_comm c, Nat.mul_comm d]; exact hl)
      have := Nat.mul_le_mul_left w this
      rw [Nat.mul_add] at this
      omega
    · subst he
      rw [Nat.mul_add_div hw, Nat.mul_add]
      omega

theorem elemBlock_zip {β : Type} (f : Nat → Option β) : ∀ (ys : List β) (start : Nat),
    (∀ k (h : k < ys.length), f (start + k) = some ys[k]) →
    elemBlock f start ys.length = some ((List.range' start ys.length).zip ys)
  | [], start, _ => rfl
  | y :: ys, start, h => by
    have h0 := h 0 (by simp)
    have ih := elemBlock_zip f ys (start + 1) (fun k hk => by
      have := h (k + 1) (by simpa using hk)
      rw [show start + 1 + k = start + (k + 1) by omega, this]; rfl)
    unfold elemBlock at ih ⊢
    rw [List.length_cons, List.range'_succ, List.mapM_cons, ih]
    simp only [Nat.add_zero, List.getElem_cons_zero] at h0
    rw [h0]; rfl

theorem callRows_eq {α β : Type} {call : List α → Option (List β)} {v g : α → β} {w : Nat} (hw : 0 < w) {wide : Bool}
    (xs : List α) {start len : Nat} (hs : w ∣ start) (hl : start + len ≤ xs.length) (he : w ∣ len ∨ start + len = xs.length)
    (hc : call ((xs.drop start).take len) = some (outRows v g (wideRows w wide len) ((xs.drop start).take len))) :
    callRows call xs start len = elemBlock (fun (i : Nat) => (outRows v g (wideRows w wide xs.length) xs)[i]?) start len := by
  unfold callRows
  rw [hc, Option.map_some]
  have hlen : (outRows v g (wideRows w wide len) ((xs.drop start).take len)).length = len := by
    rw [outRows_length]; simp; omega
  have := elemBlock_zip (fun (i : Nat) => (outRows v g (wideRows w wide xs.length) xs)[i]?)
    (outRows v g (wideRows w wide len) ((xs.drop start).take len)) start (fun k hk => by
      rw [hlen] at hk
      show (outRows v g (wideRows w wide xs.length) xs)[start + k]? = _
      rw [← List.getElem?_eq_getElem, outRows_getElem?, outRows_getElem?, List.getElem?_take_of_lt hk, List.getElem?_drop]
      have := wideRows_block hw wide hs hl he hk
      by_cases h : k < wideRows w wide len
      · rw [if_pos h, if_pos (this.1 h)]
      · rw [if_neg h, if_neg (fun h' => h (this.2 h'))])
  rw [hlen] at this
  exact this.symm

theorem blockLen_facts {n b : Nat} (hb : b < blockLastGeneric n chunk) :
    chunk * b + blockLen n chunk (blockLastGeneric n chunk) b ≤ n ∧
    (blockLen n chunk (blockLastGeneric n chunk) b = chunk ∨ chunk * b + blockLen n chunk (blockLastGeneric n chunk) b = n) := by
  have hL : blockLastGeneric n chunk = (n + 16383) / 16384 := rfl
  have hC : chunk = 16384 := rfl
  rw [hL] at hb ⊢
  unfold blockLen
  rw [mask_eq, hC]
  by_cases h1 : b + 1 = (n + 16383) / 16384
  · rw [if_pos h1]
    by_cases h2 : n % 16384 = 0
    · rw [if_neg (by omega)]; omega
    · rw [if_pos h2]; omega
  · rw [if_neg h1]; omega

theorem mapM_congr' {α β : Type} {f g : α → Option β} {l : List α} (h : ∀ a ∈ l, f a = g a) : l.mapM f = l.mapM g := by
  induction l with
  | nil => rfl
  | cons a l ih =>
    rw [List.mapM_cons, List.mapM_cons, h a (by simp), ih (fun b hb => h b (by simp [hb]))]

/-- What a kernel with registers writes, for every schedule. -/
theorem unaryWork_exact {α β : Type} {call : List α → Option (List β)} {v g : α → β} {w : Nat} (hw : 0 < w) (hwc : w ∣ chunk) {wide : Bool}
    (xs : List α)
    (hc : ∀ start len, start + len ≤ xs.length →
      call ((xs.drop start).take len) = some (outRows v g (wideRows w wide len) ((xs.drop start).take len)))
    {workers : Nat} {nt : Bool} {par : Option (List Nat)} (h : ChunkSched workers xs.length nt par) :
    (unaryWork call xs par).bind (runWrites xs.length) = some ((outRows v g (wideRows w wide xs.length) xs).map some) := by
  have hn := outRows_length v g (wideRows w wide xs.length) xs
  have hwork : unaryWork call xs par = elemWork (fun (i : Nat) => (outRows v g (wideRows w wide xs.length) xs)[i]?) xs.length par := by
    rcases h.cases with ⟨rfl, _⟩ | ⟨calls, rfl, _, hp⟩
    · exact callRows_eq hw xs (Nat.dvd_zero _) (by omega) (.inr (by omega)) (hc 0 xs.length (by omega))
    · unfold unaryWork elemWork
      dsimp only
      congr 1
      apply mapM_congr'
      intro b hb
      have hb' : b < blockLastGeneric xs.length chunk := by simpa using hp.mem_iff.1 hb
      obtain ⟨h1, h2⟩ := blockLen_facts hb'
      refine callRows_eq hw xs (Nat.dvd_trans hwc (Nat.dvd_mul_right _ _)) h1 ?_ (hc _ _ h1)
      rcases h2 with h2 | h2
      · left; rw [h2]; exact hwc
      · exact .inr h2
  rw [hwork]
  match hx : outRows v g (wideRows w wide xs.length) xs with
  | [] =>
    rw [hx] at hn
    have h0 : xs.length = 0 := by simpa using hn.symm
    rcases h.cases with ⟨rfl, _⟩ | ⟨calls, rfl, _, hp⟩
    · rw [h0]; rfl
    · rw [h0] at hp ⊢
      have : calls = [] := by simpa [blockLastGeneric, chunk] using hp
      subst this; rfl
  | y :: ys =>
    rw [hx] at hn
    have hex := elemWork_exact (fun (i : Nat) => (y :: ys)[i]?) (fun (i : Nat) => (y :: ys).getD i y) (n := xs.length)
      (fun i hi => by
        show (y :: ys)[i]? = _
        rw [List.getD_eq_getElem?_getD, List.getElem?_eq_getElem (by omega)]; rfl) h
    rw [hex]
    congr 2
    apply List.ext_getElem
    · simp [← hn]
    · intro i h1 h2
      simp [List.getD_eq_getElem?_getD]
      rw [List.getElem?_eq_getElem h2]; rfl

/-- Undefined behaviour in a row which is not computed by registers is undefined behaviour of the operation. -/
theorem unaryWork_none {α β : Type} {vec : List α → List β} {s : α → Option β} {w : Nat} (hw : 0 < w) (hwc : w ∣ chunk) {wide : Bool}
    (xs : List α) {i : Nat} (hi : i < xs.length) (hm : wideRows w wide xs.length ≤ i) (hn : s xs[i] = none)
    {workers : Nat} {nt : Bool} {par : Option (List Nat)} (h : ChunkSched workers xs.length nt par) :
    unaryWork (fastCall vec s w wide) xs par = none := by
  have hcall : ∀ start len, start + len ≤ xs.length → start ≤ i → i < start + len → w ∣ start → (w ∣ len ∨ start + len = xs.length) →
      callRows (fastCall vec s w wide) xs start len = none := by
    intro start len h1 h2 h3 h4 h5
    unfold callRows
    have hl : ((xs.drop start).take len).length = len := by simp; omega
    rw [fastCall_none vec wide ((xs.drop start).take len) (i := i - start) (by omega)]
    · rfl
    · rw [hl]
      have := wideRows_block hw wide h4 h1 h5 (k := i - start) (by omega)
      omega
    · rw [List.getElem_take, List.getElem_drop]
      have : xs[start + (i - start)] = xs[i] := by congr 1; omega
      rw [this]; exact hn
  rcases h.cases with ⟨rfl, _⟩ | ⟨calls, rfl, _, hp⟩
  · exact hcall 0 xs.length (by omega) (by omega) (by omega) (Nat.dvd_zero _) (.inr (by omega))
  · have hmem : i ∈ (List.range (blockLastGeneric xs.length chunk)).flatMap (blockRows xs.length chunk) := by
      rw [blocks_cover]; simpa using hi
    obtain ⟨b, hb, hib⟩ := List.mem_flatMap.1 hmem
    have hb' : b < blockLastGeneric xs.length chunk := by simpa using hb
    unfold blockRows at hib
    rw [List.mem_range'_1] at hib
    obtain ⟨h1, h2⟩ := blockLen_facts hb'
    show (calls.mapM fun b => callRows (fastCall vec s w wide) xs (chunk * b) _).map List.flatten = none
    rw [mapM_none _ calls (hp.mem_iff.2 hb)]
    · rfl
    · refine hcall _ _ h1 hib.1 hib.2 (Nat.dvd_trans hwc (Nat.dvd_mul_right _ _)) ?_
      rcases h2 with h2 | h2
      · left; rw [h2]; exact hwc
      · exact .inr h2

/-- The operation with `fastCall`, for every schedule. -/
theorem fastWork_exact {α β : Type} {vec : List α → List β} {s : α → Option β} {v g : α → β} {w : Nat} (hw : 0 < w) (hwc : w ∣ chunk)
    (hv : ∀ l : List α, l.length = w → vec l = l.map v) (wide : Bool) (xs : List α) (hs : ∀ x ∈ xs, s x = some (g x))
    {workers : Nat} {nt : Bool} {par : Option (List Nat)} (h : ChunkSched workers xs.length nt par) :
    (unaryWork (fastCall vec s w wide) xs par).bind (runWrites xs.length) = some ((outRows v g (wideRows w wide xs.length) xs).map some) := by
  refine unaryWork_exact hw hwc xs (fun start len hl => ?_) h
  have hlen : ((xs.drop start).take len).length = len := by simp; omega
  rw [fastCall_eq hv wide _ (fun x hx => hs x (List.mem_of_mem_drop (List.mem_of_mem_take hx))), hlen]

/-- The operation with `slowCall`, for every schedule. -/
theorem slowWork_exact {α β : Type} {s : α → Option β} {g : α → β} (xs : List α) (hs : ∀ x ∈ xs, s x = some (g x))
    {workers : Nat} {nt : Bool} {par : Option (List Nat)} (h : ChunkSched workers xs.length nt par) :
    (unaryWork (slowCall s) xs par).bind (runWrites xs.length) = some ((xs.map g).map some) := by
  have := unaryWork_exact (call := slowCall s) (v := g) (g := g) (w := 1) (wide := false) (by decide) (Nat.one_dvd _) xs (fun start len hl => ?_) h
  · rw [this, outRows_same _ _ _ _ (fun _ _ => rfl)]
  · unfold slowCall
    rw [mapM_some s g _ (fun x hx => hs x (List.mem_of_mem_drop (List.mem_of_mem_take hx)))]
    simp [outRows, wideRows]

end Riptide.Unary
