import Verif.Bins.Props
/-! Property C33 for strings. -/
namespace Riptide.Bins
open Riptide.Work Spec Str.Spec

/-- The strings of width `w` in a buffer. -/
def strings (data : List Nat) (w n : Nat) : List (List Nat) :=
  (List.range n).map fun j => (data.drop (j * w)).take w

theorem strings_get {data : List Nat} {w n i : Nat} (h : i < n) :
    (strings data w n)[i]? = some ((data.drop (i * w)).take w) := by
  unfold strings; simp [h]

theorem binAt_nat {bins : List Nat} {w n i : Nat} (hl : bins.length = n * w) (h : i < n) :
    binAt bins w i = some ((bins.drop (i * w)).take w) := by
  unfold binAt bytesAt
  rw [if_pos (by omega)]
  have : (i + 1) * w ≤ n * w := Nat.mul_le_mul_right _ h
  rw [Nat.add_mul, Nat.one_mul] at this
  simp only [Int.toNat_natCast]
  rw [if_pos (by omega)]

/-- The bin of a string: 0 for the empty string. -/
def StringBin (edges : List (List Nat)) (s : List Nat) (r : Int) : Prop :=
  if content s = [] then r = 0 else IsBin Before edges s r

theorem content_nil_iff {s : List Nat} {c : Nat} (h : NoInnerNul s) (hc : s[0]? = some c) :
    content s = [] ↔ c = 0 := by
  cases s with
  | nil => simp at hc
  | cons x xs =>
    simp only [List.getElem?_cons_zero, Option.some.injEq] at hc
    subst hc
    constructor
    · intro e
      unfold content at e
      split at e
      · rename_i h'; exact h'.1
      · cases e
    · rintro rfl
      exact Str.content_nil_of_zero h

/-- One string. -/
theorem cutString_run {o : IT} {bins : List Nat} {wb n : Nat} (hl : bins.length = n * wb) (hn : 0 < n)
    (hov : NoOverflow o n) (hnul : ∀ e ∈ strings bins wb n, NoInnerNul e)
    (hs : (strings bins wb n).Pairwise Before) {s : List Nat} (hs0 : s ≠ []) (hsn : NoInnerNul s) :
    ∃ r, cutString o bins wb n s = some r ∧ StringBin (strings bins wb n) s r := by
  let E : Nat → List Nat := fun j => (bins.drop (j * wb)).take wb
  have hE : ∀ i, i < n → (strings bins wb n)[i]? = some (E i) := fun i hi => strings_get hi
  have hEn : ∀ i, i < n → NoInnerNul (E i) := fun i hi => hnul _ (List.mem_of_getElem? (hE i hi))
  have hat : ∀ i : Nat, i < n → binAt bins wb i = some (E i) := fun i hi => binAt_nat hl hi
  have hlen : (strings bins wb n).length = n := by simp [strings]
  have hmono : ∀ i j, i < j → j < n → content (E i) < content (E j) := by
    intro i j hij hj
    have := List.pairwise_iff_getElem.1 hs i j (by omega) (by omega) hij
    have e1 : (strings bins wb n)[i]'(by omega) = E i := by
      have := hE i (by omega)
      rw [List.getElem?_eq_getElem (by omega)] at this; exact Option.some.inj this
    have e2 : (strings bins wb n)[j]'(by omega) = E j := by
      have := hE j hj
      rw [List.getElem?_eq_getElem (by omega)] at this; exact Option.some.inj this
    rw [e1, e2] at this; exact this
  have hhead : (strings bins wb n).head? = some (E 0) := by rw [List.head?_eq_getElem?]; exact hE 0 hn
  have hlast : (strings bins wb n).getLast? = some (E (n - 1)) := by
    rw [List.getLast?_eq_getElem?, hlen]; exact hE _ (by omega)
  obtain ⟨c, hc⟩ : ∃ c, s[0]? = some c := by
    cases s with
    | nil => exact absurd rfl hs0
    | cons c _ => exact ⟨c, rfl⟩
  have hcn := content_nil_iff hsn hc
  unfold cutString
  rw [hc]
  simp only [Option.bind_some]
  by_cases h0 : c = 0
  · rw [if_pos h0]; exact ⟨0, rfl, by unfold StringBin; rw [if_pos (hcn.2 h0)]⟩
  · have hSB : ∀ r, StringBin (strings bins wb n) s r = IsBin Before (strings bins wb n) s r := by
      intro r; unfold StringBin; rw [if_neg (fun h => h0 (hcn.1 h))]
    rw [if_neg h0]
    simp only [hSB]
    have h00 := hat 0 hn
    have e : (n : Int) - 1 = ((n - 1 : Nat) : Int) := by omega
    replace h00 : binAt bins wb 0 = some (E 0) := h00
    rw [h00]
    simp only [Option.bind_some]
    obtain ⟨-, -, -, hge⟩ := Str.bin_compare_partial s (E 0) hsn (hEn 0 hn)
    by_cases hlo : content (E 0) ≤ content s
    · rw [if_pos (hge.2 hlo)]
      rw [show binAt bins wb ((n : Int) - 1) = some (E (n - 1)) by rw [e]; exact hat _ (by omega)]
      simp only [Option.bind_some]
      obtain ⟨-, hle, -, -⟩ := Str.bin_compare_partial s (E (n - 1)) hsn (hEn _ (by omega))
      by_cases hhi : content s ≤ content (E (n - 1))
      · rw [if_pos (hle.2 hhi)]
        obtain ⟨r, h1, h2, h3⟩ := bin_of_loop (o := o) (n := n) hn hov
          (gt := fun m => (binAt bins wb m).map fun b => Str.binGt b s)
          (lt := fun m => (binAt bins wb m).map fun b => Str.binLt b s)
          (le := fun m => (binAt bins wb m).map fun b => Str.binLe s b)
          (G := fun i => content s < content (E i)) (L := fun i => content (E i) < content s)
          (by
            intro i hi
            exact ⟨Str.binGt (E i) s, by show (binAt bins wb i).map _ = _; rw [hat i hi]; rfl,
              (Str.bin_compare_partial (E i) s (hEn i hi) hsn).2.2.1⟩)
          (by
            intro i hi
            exact ⟨Str.binLt (E i) s, by show (binAt bins wb i).map _ = _; rw [hat i hi]; rfl,
              (Str.bin_compare_partial (E i) s (hEn i hi) hsn).1⟩)
          (by
            intro i hi
            refine ⟨Str.binLe s (E i), by show (binAt bins wb i).map _ = _; rw [hat i hi]; rfl, ?_⟩
            rw [(Str.bin_compare_partial s (E i) hsn (hEn i hi)).2.1]
            exact List.not_lt.symm)
          (by
            intro i j hij hj h
            exact List.lt_of_le_of_lt (List.not_lt.1 h) (hmono i j hij hj))
          (by
            intro i j hij hj h
            exact Decidable.byContradiction fun h' =>
              h (List.lt_of_le_of_lt (List.not_lt.1 h') (hmono i j hij hj)))
          (by rintro i hi ⟨h1, h2⟩; exact Str.lt_asymm_list h1 h2)
          (List.not_lt.2 hhi)
        refine ⟨r, h1, ?_⟩
        rcases h3 with ⟨h3, h4⟩ | ⟨h3, h4, h5⟩
        · exact .inr (.inl ⟨by omega, E 0, hhead, List.not_lt.2 hlo, h4⟩)
        · exact .inr (.inr ⟨r, rfl, h2, E (r - 1), E r, hE _ (by omega), hE _ h3, h4, h5⟩)
      · rw [if_neg (fun h => hhi (hle.1 h))]
        exact ⟨0, rfl, .inl ⟨rfl, .inr ⟨_, hlast, List.not_le.1 hhi⟩⟩⟩
    · rw [if_neg (fun h => hlo (hge.1 h))]
      exact ⟨0, rfl, .inl ⟨rfl, .inl ⟨_, hhead, List.not_le.1 hlo⟩⟩⟩

/-- Where row `i` is read from: block `i / 16384` starts that many bytes, not strings, into the buffer. -/
def readAt (par : Option (List Nat)) (wv i : Nat) : Nat :=
  match par with
  | none => i * wv
  | some _ => chunk * (i / chunk) + i % chunk * wv

/-- What is computed for strings, for every split over threads: each row gets the bin of the bytes at
`readAt`. -/
theorem strings_exact {bins : List Nat} {wb n : Nat} (hl : bins.length = n * wb) (hn : 0 < n)
    (hsize : SizeOk n) (hnul : ∀ e ∈ strings bins wb n, NoInnerNul e)
    (hs : (strings bins wb n).Pairwise Before) (mode : Mode) (data : List Nat) (wv rows : Nat) (hw : 0 < wv)
    (hd : data.length = rows * wv) {workers : Nat} {nt : Bool} {par : Option (List Nat)}
    (hv : ∀ i, i < rows → NoInnerNul ((data.drop (readAt par wv i)).take wv))
    (h : ChunkSched workers rows nt par) :
    ∃ out : List Int, binsToCutsString mode bins wb n data wv rows par = some (out.map some) ∧
      out.length = rows ∧ ∀ (i : Nat) (r : Int), out[i]? = some r →
        StringBin (strings bins wb n) ((data.drop (readAt par wv i)).take wv) r := by
  have hov := noOverflow_outType hsize
  let f : Nat → Option Int := fun i =>
    (bytesAt data (readAt par wv i) wv).bind (cutString (outType n) bins wb n)
  have hin : ∀ i, i < rows → readAt par wv i + wv ≤ data.length := by
    intro i hi
    have h1 : (i + 1) * wv ≤ rows * wv := Nat.mul_le_mul_right _ hi
    rw [Nat.add_mul, Nat.one_mul] at h1
    have h2 : readAt par wv i ≤ i * wv := by
      unfold readAt
      cases par with
      | none => exact Nat.le_refl _
      | some _ =>
        show chunk * (i / chunk) + i % chunk * wv ≤ i * wv
        have h3 : i * wv = chunk * (i / chunk) * wv + i % chunk * wv := by
          rw [← Nat.add_mul, Nat.div_add_mod]
        have h4 : chunk * (i / chunk) * 1 ≤ chunk * (i / chunk) * wv := Nat.mul_le_mul_left _ hw
        omega
    omega
  have hone : ∀ i, i < rows → ∃ r, f i = some r ∧
      StringBin (strings bins wb n) ((data.drop (readAt par wv i)).take wv) r := by
    intro i hi
    obtain ⟨r, h1, h2⟩ := cutString_run (o := outType n) hl hn hov hnul hs
      (s := (data.drop (readAt par wv i)).take wv) (by
        intro e
        have := congrArg List.length e
        rw [List.length_take, List.length_drop, List.length_nil] at this
        have := hin i hi
        omega) (hv i hi)
    refine ⟨r, ?_, h2⟩
    show (bytesAt _ _ _).bind _ = _
    unfold bytesAt
    rw [if_pos (hin i hi)]; exact h1
  have hwork : binsToCutsString mode bins wb n data wv rows par =
      (elemWork f rows par).bind (runWrites rows) := by
    unfold binsToCutsString elemWork
    have hblock : ∀ (start len : Nat), (∀ j, j < len → start + j * wv = readAt par wv (start + j)) →
        elemBlock (stringRow (outType n) bins wb n data wv start) start len = elemBlock f start len := by
      intro start len hj
      unfold elemBlock
      have : ∀ (l : List Nat), (∀ i ∈ l, start ≤ i ∧ i < start + len) →
          l.mapM (fun i => (stringRow (outType n) bins wb n data wv start i).map fun v => (i, v)) =
          l.mapM (fun i => (f i).map fun v => (i, v)) := by
        intro l
        induction l with
        | nil => intro _; rfl
        | cons i l ih =>
          intro hl
          rw [List.mapM_cons, List.mapM_cons, ih fun j hj => hl j (List.mem_cons_of_mem _ hj)]
          have hi := hl i (List.mem_cons_self ..)
          have hji := hj (i - start) (by omega)
          rw [show start + (i - start) = i by omega] at hji
          have : stringRow (outType n) bins wb n data wv start i = f i := by
            show (bytesAt data (start + (i - start) * wv) wv).bind _ = (bytesAt data (readAt par wv i) wv).bind _
            rw [hji]
          rw [this]
      refine this _ fun i hi => ?_
      rw [List.mem_range'] at hi
      obtain ⟨k, hk, rfl⟩ := hi
      omega
    cases par with
    | none =>
      refine congrArg (fun x => Option.bind x (runWrites rows)) ?_
      exact hblock 0 rows fun j _ => by show 0 + j * wv = (0 + j) * wv; simp
    | some calls =>
      refine congrArg (fun x => Option.bind x (runWrites rows)) ?_
      have : ∀ l : List Nat, (l.mapM fun b => elemBlock (stringRow (outType n) bins wb n data wv (chunk * b))
            (chunk * b) (blockLen rows chunk (blockLastGeneric rows chunk) b)) =
          l.mapM fun b => elemBlock f (chunk * b) (blockLen rows chunk (blockLastGeneric rows chunk) b) := by
        intro l
        induction l with
        | nil => rfl
        | cons b l ih =>
          rw [List.mapM_cons, List.mapM_cons, ih, hblock]
          intro j hj
          have hj' : j < chunk := by
            have : blockLen rows chunk (blockLastGeneric rows chunk) b ≤ chunk := by
              have hm : rows &&& mask < chunk := by rw [mask_eq]; exact Nat.mod_lt _ (by decide)
              unfold blockLen
              split
              · split
                · exact Nat.le_of_lt hm
                · exact Nat.le_refl _
              · exact Nat.le_refl _
            omega
          show chunk * b + j * wv = chunk * ((chunk * b + j) / chunk) + (chunk * b + j) % chunk * wv
          rw [Nat.mul_add_div (by decide), Nat.div_eq_of_lt hj', Nat.mul_add_mod, Nat.mod_eq_of_lt hj']
          simp
      exact congrArg (fun x => x.map List.flatten) (this calls)
  let g : Nat → Int := fun i => (f i).getD 0
  refine ⟨(List.range rows).map g, ?_, by simp, ?_⟩
  · rw [hwork]
    refine elemWork_exact _ g (fun i hi => ?_) h
    obtain ⟨r, h1, -⟩ := hone i hi
    show f i = some ((f i).getD 0)
    rw [h1]; rfl
  · intro i r hr
    have hi : i < rows := by
      have := (List.getElem?_eq_some_iff.1 hr).1
      simpa using this
    obtain ⟨r', h1, h2⟩ := hone i hi
    rw [List.getElem?_map, List.getElem?_range hi] at hr
    have e : g i = r := Option.some.inj hr
    have e' : g i = r' := by show (f i).getD 0 = r'; rw [h1]; rfl
    rw [← e, e']; exact h2

/-- **C33 for strings.** Every row gets the bin of its own string, when the array is handled in one call (it is
short, or threading is off) or the strings have one character. -/
theorem cut_strings_partial {bins : List Nat} {wb n : Nat} (hl : bins.length = n * wb) (hn : 0 < n)
    (hsize : SizeOk n) (hnul : ∀ e ∈ strings bins wb n, NoInnerNul e)
    (hs : (strings bins wb n).Pairwise Before) (data : List Nat) (wv rows : Nat) (hw : 0 < wv)
    (hd : data.length = rows * wv) (hv : ∀ s ∈ strings data wv rows, NoInnerNul s)
    {workers : Nat} {nt : Bool} {par : Option (List Nat)} (h : ChunkSched workers rows nt par)
    (hone : par = none ∨ wv = 1) :
    ∃ out : List Int, binsToCutsString .cut bins wb n data wv rows par = some (out.map some) ∧
      out.length = rows ∧ ∀ (i : Nat) (s : List Nat) (r : Int), (strings data wv rows)[i]? = some s →
        out[i]? = some r → StringBin (strings bins wb n) s r := by
  have hr : ∀ i, readAt par wv i = i * wv := by
    intro i
    rcases hone with rfl | rfl
    · rfl
    · unfold readAt
      cases par with
      | none => rfl
      | some _ => show chunk * (i / chunk) + i % chunk * 1 = i * 1; rw [Nat.mul_one, Nat.mul_one, Nat.div_add_mod]
  obtain ⟨out, h1, h2, h3⟩ := strings_exact hl hn hsize hnul hs .cut data wv rows hw hd
    (fun i hi => by rw [hr]; exact hv _ (List.mem_of_getElem? (strings_get hi))) h
  refine ⟨out, h1, h2, fun i s r hi hr' => ?_⟩
  have := h3 i r hr'
  rw [hr] at this
  have hlt : i < rows := by
    have := (List.getElem?_eq_some_iff.1 hi).1
    simpa [strings] using this
  rw [strings_get hlt] at hi
  cases hi; exact this

example : binsToCutsString .cut [97, 0, 98, 0, 98, 99] 2 3 [98, 0, 0, 97, 98, 0, 98, 99, 0, 97, 0, 0, 0, 0, 0, 99, 0, 0] 3 6
    none = some [some 1, some 1, some 2, some 1, some 0, some 0] := by decide +kernel

/-- A string array large enough for threads, of two characters each: `"a"` up to row 16383 and `"c"` from
there on. -/
def exRows : Nat := big
def exData : List Nat :=
  (List.range (exRows * 2)).map fun k => if k % 2 = 1 then 0 else if k < 32768 then 97 else 99

theorem map_range_slice {α : Type} (f : Nat → α) (N off : Nat) (h : off + 2 ≤ N) :
    (((List.range N).map f).drop off).take 2 = [f off, f (off + 1)] := by
  apply List.ext_getElem?
  intro i
  rcases i with _ | _ | i
  · rw [List.getElem?_take_of_lt (by omega), List.getElem?_drop, List.getElem?_map, List.getElem?_range (by omega)]
    rfl
  · rw [List.getElem?_take_of_lt (by omega), List.getElem?_drop, List.getElem?_map, List.getElem?_range (by omega)]
    rfl
  · rw [List.getElem?_eq_none (by simp; omega), List.getElem?_eq_none (by simp)]

/-- The split over threads breaks `cut` for strings: with the edges `"a"`, `"b"`, `"c"`, row 16384 of the array
holds `"c"`, of bin 2, and every run over threads puts it in bin 1, the bin of row 8192. -/
theorem cut_strings_threads_wrong {workers : Nat} {calls : List Nat}
    (h : ChunkSched workers exRows false (some calls)) :
    (strings exData 2 exRows)[16384]? = some [99, 0] ∧
    StringBin (strings [97, 98, 99] 1 3) [99, 0] 2 ∧
    ∃ out : List Int, binsToCutsString .cut [97, 98, 99] 1 3 exData 2 exRows (some calls) = some (out.map some) ∧
      out[16384]? = some 1 := by
  have hedges : strings [97, 98, 99] 1 3 = [[97], [98], [99]] := by decide
  have hn1 : ∀ x : Nat, x ≠ 0 → NoInnerNul [x] := by
    intro x hx i j hij hi
    cases i with
    | zero => simp at hi; exact absurd hi hx
    | succ i => simp at hi
  have hn2 : ∀ (x : Nat), x ≠ 0 → NoInnerNul [x, 0] := by
    intro x hx i j hij hi
    match i, j with
    | 0, _ => simp at hi; exact absurd hi hx
    | 1, 1 => simp
    | 1, j + 2 => right; simp
    | i + 2, _ => simp at hi
    | 1, 0 => omega
  have hlen : exData.length = exRows * 2 := by simp [exData]
  have hslice : ∀ k, k % 2 = 0 → k + 2 ≤ 65536 →
      (exData.drop k).take 2 = [if k < 32768 then 97 else 99, 0] := by
    intro k h1 h2
    unfold exData
    rw [map_range_slice _ _ _ (show k + 2 ≤ exRows * 2 from h2), if_neg (show ¬ k % 2 = 1 by omega),
      if_pos (show (k + 1) % 2 = 1 by omega)]
  have hrow : ∀ i, i < exRows → ∃ x, x ≠ 0 ∧ (exData.drop (readAt (some calls) 2 i)).take 2 = [x, 0] := by
    intro i hi
    have hi' : i < 32768 := hi
    refine ⟨_, ?_, hslice _ ?_ ?_⟩
    · split <;> decide
    · show (16384 * (i / 16384) + i % 16384 * 2) % 2 = 0; omega
    · show 16384 * (i / 16384) + i % 16384 * 2 + 2 ≤ 65536; omega
  have hnul : ∀ e ∈ strings [97, 98, 99] 1 3, NoInnerNul e := by
    rw [hedges]
    intro e he
    simp only [List.mem_cons, List.not_mem_nil, or_false] at he
    rcases he with rfl | rfl | rfl <;> exact hn1 _ (by decide)
  have hs : (strings [97, 98, 99] 1 3).Pairwise Before := by
    rw [hedges]
    unfold Before
    decide
  obtain ⟨out, h1, h2, h3⟩ := strings_exact (bins := [97, 98, 99]) (wb := 1) (n := 3) rfl (by decide)
    (.inl (by decide)) hnul hs .cut exData 2 exRows (by decide) hlen
    (fun i hi => by obtain ⟨x, hx, e⟩ := hrow i hi; rw [e]; exact hn2 x hx) h
  refine ⟨?_, ?_, out, h1, ?_⟩
  · rw [strings_get (by decide), hslice _ (by decide) (by decide)]; rfl
  · rw [hedges]
    unfold StringBin
    rw [if_neg (by decide)]
    exact .inr (.inr ⟨2, rfl, by decide, [98], [99], rfl, rfl, by unfold Before; decide, by unfold Before; decide⟩)
  · obtain ⟨m, hm⟩ : ∃ m : Nat, m = 16384 := ⟨_, rfl⟩
    rw [← hm]
    have hlt : m < out.length := by rw [h2, hm]; decide
    obtain ⟨r, hr⟩ : ∃ r, out[m]? = some r := ⟨_, List.getElem?_eq_getElem hlt⟩
    rw [hr]
    have := h3 m r hr
    have hra : readAt (some calls) 2 m = m := by
      show 16384 * (m / 16384) + m % 16384 * 2 = m
      omega
    rw [hra, hslice m (by omega) (by omega), if_pos (by omega), hedges] at this
    unfold StringBin at this
    rw [if_neg (by decide)] at this
    rcases this with ⟨h4, h5⟩ | ⟨h4, -⟩ | ⟨i, h4, h5, a, b, ha, hb, h6, h7⟩
    · rcases h5 with ⟨e, he, h5⟩ | ⟨e, he, h5⟩
      · cases he; exact absurd h5 (by unfold Before; decide)
      · cases he; exact absurd h5 (by unfold Before; decide)
    · rw [h4]
    · match i, h5 with
      | 1, _ => rw [h4]; rfl
      | 2, _ => cases ha; exact absurd h6 (by unfold Before; decide)
      | i + 3, _ => simp at hb

/-- A schedule of two blocks over two workers exists, see C01. -/
example (workers : Nat) (calls : List Nat) (h : PoolRun workers 2 calls) :
    ChunkSched workers exRows false (some calls) := .pool calls (by decide) h

/-- Strings are cut whatever the mode: the left insertion point of `"c"` in `["b"]` comes out as 0. -/
theorem strings_ignore_mode :
    binsToCutsString .left [98] 1 1 [99] 1 1 none = some [some 0] ∧
    binsToCutsString .right [98] 1 1 [99] 1 1 none = some [some 0] := by decide +kernel

/-- For unicode strings no row of the output is written. -/
theorem unicode_unwritten (rows : Nat) : binsToCutsUnicode rows = some (List.replicate rows none) := rfl

end Riptide.Bins
