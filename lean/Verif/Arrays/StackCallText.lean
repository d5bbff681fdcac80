import Verif.Arrays.StackCallProps
import Verif.Arrays.ShiftCallLemmas
/-! # `HStack` of strings, and `GetUpcastNum` (C156) -/
namespace Riptide.Nums.Stack
open Riptide.Nums Riptide.Arrays Riptide.Nums.Info Spec
open Riptide.Convert.Call (Wide)
open Riptide.Mask.Call.Spec (inC)

/-- The number of a string of bytes. -/
def patOf : List (BitVec 8) → Nat
  | [] => 0
  | c :: x => c.toNat + 256 * patOf x

theorem patOf_bytes : ∀ x : List (BitVec 8), patOf x < 256 ^ x.length ∧ bytesOf x.length (patOf x) = x
  | [] => ⟨by simp [patOf], rfl⟩
  | c :: x => by
    obtain ⟨h1, h2⟩ := patOf_bytes x
    have hc := c.isLt
    refine ⟨?_, ?_⟩
    · rw [List.length_cons, Nat.pow_succ, patOf]
      omega
    · rw [List.length_cons, bytesOf, patOf]
      congr 1
      · apply BitVec.eq_of_toNat_eq
        rw [BitVec.toNat_ofNat]
        omega
      · rw [show (c.toNat + 256 * patOf x) / 256 = patOf x from by omega]
        exact h2

theorem has_bits_iff {sw : Bool} {m : Mem} {o : Int} {x : List (BitVec 8)} :
    HasBits x.length sw m o (if sw then patOf x.reverse else patOf x) ↔ Has m o x := by
  unfold HasBits
  cases sw with
  | true =>
    obtain ⟨h1, h2⟩ := patOf_bytes x.reverse
    rw [List.length_reverse] at h1 h2
    simp only [if_pos]
    rw [h2, List.reverse_reverse]
    exact ⟨fun h => h.2, fun h => ⟨h1, h⟩⟩
  | false =>
    obtain ⟨h1, h2⟩ := patOf_bytes x
    simp only [Bool.false_eq_true, if_false]
    rw [h2]
    exact ⟨fun h => h.2, fun h => ⟨h1, h⟩⟩

/-- What is known of the entry of an array of strings. -/
def GoodText (x : Arr × Mem × List (List (BitVec 8))) (e : Entry) : Prop := e.type = x.1.type ∧ e.len = x.2.2.length ∧ e.item = x.1.lay.item ∧
  ∀ (i : Nat) s, x.2.2[i]? = some s → s.length = e.item ∧ loadStr e.data ((i * e.item : Nat) : Int) e.item = some s

theorem entry_text {ty : Nat} {a : Arr} {m : Mem} {xs : List (List (BitVec 8))} (ht : ty ≤ 20) (h : Texts ty a m xs) :
    ∃ e, entry false true true (.array a m) = .ok e ∧ GoodText (a, m, xs) e := by
  obtain ⟨k3, k4⟩ := allAt_get h.strs
  rcases h.shape with ⟨n, hn⟩ | ⟨h2, hw, hc⟩
  · obtain ⟨e, h1, hd, h3, h4⟩ := entry_good (x := .array a m) hn
    obtain ⟨g1, g2, g3, g4, g5, g6⟩ := hd
    have hb : Bits a.lay.item a m (xs.map fun x => if a.swapped then patOf x.reverse else patOf x) :=
      allAt_map (fun o x hx => by have := (has_bits_iff (sw := a.swapped)).2 hx.2; rwa [hx.1] at this) _ _ h.strs
    obtain ⟨k1, k2⟩ := g6 _ hb
    refine ⟨e, ?_, g2, by rw [g5, ← k1, List.length_map], g3, ?_⟩
    · exact entry_loose h1
    · intro i s hs
      simp only at hs
      have hlt := (List.getElem?_eq_some_iff.1 hs).1
      have ho : (inC a.lay.dims a.lay.strides)[i]? = some _ := List.getElem?_eq_getElem (by omega)
      have hl := (k4 i _ s ho hs).1
      have := k2 i _ (by rw [List.getElem?_map, hs]; rfl)
      rw [← hl] at this
      have hh := has_bits_iff.1 this
      rw [g3]
      refine ⟨hl, ?_⟩
      rw [← hl]
      exact load_str hh
  · have hcc : (a.lay.cContig || a.lay.fContig) = true := by rw [hc]; rfl
    obtain ⟨s, ss, hs⟩ : ∃ s ss, a.lay.strides = s :: ss := by
      cases hst : a.lay.strides with
      | nil => rw [hst] at hw; simp at hw; omega
      | cons s ss => exact ⟨s, ss, rfl⟩
    have hn : xs.length = a.lay.len := by rw [k3, Riptide.Mask.Call.inC_length _ _ hw]; rfl
    refine ⟨⟨true, a.type, a.lay.item, a.lay.dims.length, a.lay.len, m, false⟩, ?_, rfl, hn.symm, rfl, ?_⟩
    · unfold entry
      simp only [Shift.taken_self hcc]
      unfold entryOf
      rw [if_neg (by rw [h.type]; omega), hs]
      simp only
      rw [if_neg (by simp), if_neg (by omega)]
    · intro i x hx
      simp only at hx ⊢
      have hlt := (List.getElem?_eq_some_iff.1 hx).1
      have he := Riptide.Mask.Call.contiguous_even_c hw hc i (by omega)
      obtain ⟨h5, h6⟩ := k4 i _ x he hx
      refine ⟨h5, ?_⟩
      rw [← h5] at h6 ⊢
      have := load_str h6
      rwa [Int.natCast_mul]

theorem widest_spec (es : List Entry) (m : Nat) : m ≤ es.foldl (fun m e => if m < e.item then e.item else m) m ∧
    (∀ e ∈ es, e.item ≤ es.foldl (fun m e => if m < e.item then e.item else m) m) ∧
    (es.foldl (fun m e => if m < e.item then e.item else m) m = m ∨ ∃ e ∈ es, e.item = es.foldl (fun m e => if m < e.item then e.item else m) m) := by
  induction es generalizing m with
  | nil => exact ⟨Nat.le_refl _, by simp, .inl rfl⟩
  | cons e es ih =>
    rw [List.foldl_cons]
    obtain ⟨h1, h2, h3⟩ := ih (if m < e.item then e.item else m)
    have hm : m ≤ (if m < e.item then e.item else m) ∧ e.item ≤ (if m < e.item then e.item else m) := by split <;> omega
    refine ⟨Nat.le_trans hm.1 h1, ?_, ?_⟩
    · intro y hy
      rcases List.mem_cons.1 hy with rfl | hy
      · exact Nat.le_trans hm.2 h1
      · exact h2 y hy
    · rcases h3 with h3 | ⟨y, hy, h3⟩
      · rw [h3]
        split
        · exact .inr ⟨e, by simp, rfl⟩
        · exact .inl rfl
      · exact .inr ⟨y, by simp [hy], h3⟩

theorem upcast_same {ty : Int} (hty : ty = 18 ∨ ty = 19) : ∀ (ds : List Int), (∀ d ∈ ds, d = ty) → ds ≠ [] → upcast ds = ty := by
  intro ds hd hne
  have : ∀ (ds : List Int) (m : Mx), (∀ d ∈ ds, d = ty) → m.abort = 0 → m.object = -1 → (m.string = ty ∨ ds ≠ [] ∧ m.string = -1) →
      (ds.foldl mxStep m).abort = 0 ∧ (ds.foldl mxStep m).object = -1 ∧ (ds.foldl mxStep m).string = ty := by
    intro ds
    induction ds with
    | nil => intro m _ h1 h2 h3; exact ⟨h1, h2, by rcases h3 with h3 | ⟨h3, _⟩; exact h3; exact absurd rfl h3⟩
    | cons d ds ih =>
      intro m hd h1 h2 h3
      have hd0 := hd d (by simp)
      rw [List.foldl_cons]
      have hst : mxStep m d = { m with string := ty } := by
        unfold mxStep
        subst hd0
        rcases hty with rfl | rfl
        · simp only [show ¬ (18 : Int) ≤ 13 from by decide, if_false, show ¬ (18 : Int) = 17 from by decide, show ¬ (18 : Int) = 19 from by decide, if_true]
          split
          · rfl
          · rename_i hlt
            rcases h3 with h3 | ⟨_, h3⟩
            · rw [h3]
            · omega
        · rfl
      rw [hst]
      exact ih _ (fun x hx => hd x (by simp [hx])) h1 h2 (.inl rfl)
  obtain ⟨h1, h2, h3⟩ := this ds ⟨-1, -1, -1, -1, -1, 0⟩ hd rfl rfl (.inr ⟨hne, rfl⟩)
  unfold upcast mxResult
  rw [h1, h2, h3]
  rcases hty with rfl | rfl <;> rfl

/-- C156. Arrays of strings (of bytes, or of characters) without a type which is passed: the answer has them one after the other, filled up with zeros to the
length of the longest. -/
theorem hstack_texts (w : Wide) (ty : Nat) (hty : ty = 18 ∨ ty = 19) (args : List (Arr × Mem × List (List (BitVec 8)))) (calls : List Nat)
    (workers : Nat) (nt : Bool) (ha : ∀ x ∈ args, Texts ty x.1 x.2.1 x.2.2) (hne : args ≠ [])
    (h : StackSched workers nt (args.map fun x => x.2.2.length) calls) :
    ∃ n, hstackCall w plenty (listOf args) (-1) calls =
        .strs ty n ((args.flatMap fun x => x.2.2.map fun s => s ++ List.replicate (n - s.length) 0).map some) ∧
      (∀ x ∈ args, x.1.lay.item ≤ n) ∧ ((∃ x ∈ args, x.1.lay.item = n) ∨ n = 1 ∧ ∀ x ∈ args, x.1.lay.item = 0) := by
  obtain ⟨es, h1, h2, h3⟩ : ∃ es, entries false true (fun _ => true) 0 (args.map fun x => .array x.1 x.2.1) = .ok es ∧ es.length = args.length ∧
      ∀ (k : Nat) x, args[k]? = some x → ∃ e, es[k]? = some e ∧ GoodText x e := by
    clear h hne
    generalize 0 = i
    induction args generalizing i with
    | nil => exact ⟨[], rfl, rfl, by simp⟩
    | cons x args ih =>
      obtain ⟨es, g1, g2, g3⟩ := ih (fun y hy => ha y (by simp [hy])) (i + 1)
      obtain ⟨e, k1, k2⟩ := entry_text (by omega) (ha x (by simp))
      refine ⟨e :: es, ?_, by simp [g2], ?_⟩
      · rw [List.map_cons]
        unfold entries
        rw [k1]
        simp only
        rw [g1]
      · intro k y hk
        cases k with
        | zero => exact ⟨e, rfl, by simp at hk; rw [← hk]; exact k2⟩
        | succ k => exact g3 k y (by simpa using hk)
  have good : ∀ (k : Nat) (hk : k < args.length) (hk' : k < es.length), GoodText args[k] es[k] := by
    intro k hk hk'
    obtain ⟨e, g1, g2⟩ := h3 k _ (List.getElem?_eq_getElem hk)
    rw [List.getElem?_eq_getElem hk'] at g1
    rw [Option.some.inj g1]
    exact g2
  have types : ∀ e ∈ es, e.type = ty := by
    intro e he
    obtain ⟨k, hk, rfl⟩ := List.getElem_of_mem he
    rw [(good k (by omega) hk).1, (ha _ (List.getElem_mem _)).type]
  have hes : es ≠ [] := by
    intro e
    rw [e] at h2
    exact hne (List.length_eq_zero_iff.1 h2.symm)
  have hcm : common es = ty := by
    unfold common
    refine upcast_same (by omega) _ ?_ (by simpa using hes)
    intro d hd
    obtain ⟨e, he, rfl⟩ := List.mem_map.1 hd
    rw [types e he]
  obtain ⟨_, w2, w3⟩ := widest_spec es 0
  have hn : ∃ n, n = if widest es = 0 then 1 else widest es := ⟨_, rfl⟩
  obtain ⟨n, hn⟩ := hn
  have hle : ∀ x ∈ args, x.1.lay.item ≤ widest es := by
    intro x hx
    obtain ⟨k, hk, rfl⟩ := List.getElem_of_mem hx
    rw [← (good k hk (by omega)).2.2.1]
    exact w2 _ (List.getElem_mem _)
  refine ⟨n, ?_, ?_, ?_⟩
  · unfold hstackCall
    rw [if_neg (by omega)]
    have hb : build true (fun _ => true) false true (listOf args) = .ok es (es.map (·.item)).sum := by
      unfold build listOf
      simp only [Obj.list]
      rw [if_neg (by decide), h1]
      simp only
      rw [if_pos (by unfold sameRows; split <;> rfl)]
    rw [show build plenty.table plenty.copies false true (listOf args) = .ok es (es.map (·.item)).sum from hb]
    simp only
    unfold stackList
    rw [if_neg (by decide), hcm, if_neg (by rcases hty with rfl | rfl <;> omega), if_pos ⟨by rcases hty with rfl | rfl <;> simp, by
      rw [List.all_eq_true]
      intro e he
      rw [types e he]
      simp⟩]
    unfold stackStrs
    rw [← hn]
    rw [if_neg (show ¬ (plenty.work = false) from by decide), if_neg (show ¬ (plenty.result = false) from by decide)]
    have hs : hstack (strRow n es) (es.map (·.len)) calls =
        some ((args.map fun x => x.2.2.map fun s => s ++ List.replicate (n - s.length) 0).flatten.map some) := by
      have hlens : es.map (·.len) = args.map fun x => x.2.2.length := by
        apply List.ext_getElem (by simp [h2])
        intro i h4 h5
        simp only [List.length_map] at h4 h5
        simp only [List.getElem_map]
        exact (good i h5 h4).2.1
      refine stack_known (workers := workers) (nt := nt) ?_ ?_ (by rw [hlens]; exact h)
      · rw [hlens, List.map_map]
        apply List.map_congr_left
        intro x _
        simp
      · intro t i ys y hys hyy
        rw [List.getElem?_map, Option.map_eq_some_iff] at hys
        obtain ⟨x, hx, rfl⟩ := hys
        rw [List.getElem?_map, Option.map_eq_some_iff] at hyy
        obtain ⟨s, hs, rfl⟩ := hyy
        obtain ⟨e, he, g1, g2, g3, g4⟩ := h3 t x hx
        obtain ⟨l1, l2⟩ := g4 i s hs
        have hsn : s.length ≤ n := by
          rw [l1, g3]
          have := hle x (List.mem_of_getElem? hx)
          rw [hn]
          split <;> omega
        unfold strRow
        rw [he, Option.bind_some, l2, Option.map_some]
        congr 1
        unfold fill
        split
        · rfl
        · rw [show n - s.length = 0 from by omega, List.replicate_zero, List.append_nil]
          rw [List.take_of_length_le (by omega)]
    rw [hs]
    simp only
    rw [← List.flatMap_def]
    simp
  · intro x hx
    have := hle x hx
    rw [hn]
    split <;> omega
  · rcases w3 with w3 | ⟨e, he, w3⟩
    · right
      have hz : widest es = 0 := w3
      refine ⟨by rw [hn, if_pos hz], fun x hx => ?_⟩
      have := hle x hx
      omega
    · by_cases hz : widest es = 0
      · right
        refine ⟨by rw [hn, if_pos hz], fun x hx => ?_⟩
        have := hle x hx
        omega
      · left
        obtain ⟨k, hk, rfl⟩ := List.getElem_of_mem he
        refine ⟨args[k], List.getElem_mem _, ?_⟩
        rw [← (good k (by omega) hk).2.2.1, hn, if_neg hz]
        exact w3

/-- C156. `GetUpcastNum` answers the type which `HStack` would take, for arrays without gaps. -/
theorem upcast_type (copies : Nat → Bool) (args : List (Arr × Mem))
    (ha : ∀ x ∈ args, x.1.type ≤ 20 ∧ ∃ s ss, x.1.lay.strides = s :: ss ∧ (x.1.lay.dims.length = 1 → s = x.1.lay.item ∨ x.1.lay.len = 0)) :
    upcastNum true copies (.items (args.map fun x => .array x.1 x.2)) = .num (upcast (args.map fun x => (x.1.type : Int))) := by
  have hent : ∀ (args : List (Arr × Mem)) (i : Nat), (∀ x ∈ args, x.1.type ≤ 20 ∧ ∃ s ss, x.1.lay.strides = s :: ss ∧
      (x.1.lay.dims.length = 1 → s = x.1.lay.item ∨ x.1.lay.len = 0)) →
      entries false false copies i (args.map fun x => .array x.1 x.2) =
        .ok (args.map fun x => ⟨true, x.1.type, x.1.lay.item, x.1.lay.dims.length, x.1.lay.len, x.2, false⟩) := by
    intro args
    induction args with
    | nil => intro i _; rfl
    | cons x args ih =>
      intro i h
      obtain ⟨ht, s, ss, hs, h1⟩ := h x (by simp)
      rw [List.map_cons]
      unfold entries
      have : entry false false (copies i) (.array x.1 x.2) =
          .ok ⟨true, x.1.type, x.1.lay.item, x.1.lay.dims.length, x.1.lay.len, x.2, false⟩ := by
        unfold entry taken
        simp only [Bool.false_eq_true, if_false]
        unfold entryOf
        rw [if_neg (by omega), hs]
        simp only
        rw [if_neg (by simp), if_neg (by
          rintro ⟨a1, a2, a3⟩
          rcases h1 a3 with h1 | h1
          · exact a1 h1
          · omega)]
      rw [this]
      simp only
      rw [ih (i + 1) (fun y hy => h y (by simp [hy]))]
      rfl
  unfold upcastNum build
  simp only [Obj.list]
  rw [if_neg (by decide), hent args 0 ha]
  simp only
  rw [if_pos (by unfold sameRows; split <;> rfl)]
  simp only
  unfold common
  rw [List.map_map]
  rfl

end Riptide.Nums.Stack
