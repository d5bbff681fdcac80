import Verif.Hash.IsMemEntry
import Verif.Hash.IsMemEntrySpec
import Verif.Hash.MkEntryProps
/-! # Lemmas on the membership call -/
namespace Riptide.Hash
open Spec Riptide.Work Riptide.Str Riptide.Str.Spec

theorem lookAll_ok {K : Type} {f : K → Except Fault (Bool × Int)} {g : K → Bool × Int} : ∀ {a : List K}, (∀ x ∈ a, f x = .ok (g x)) →
    lookAll f a = .ok (a.map g)
  | [], _ => rfl
  | x :: xs, h => by
    rw [lookAll, h x (by simp), lookAll_ok (a := xs) fun y hy => h y (by simp [hy])]
    rfl

theorem memberRun_exact {K : Type} {P : K → Prop} (extra lost : Nat) (t : IT) (ins : K → Bool) (hash : K → Nat) (eq : K → K → Bool)
    (size : Nat) (L : Laws P hash eq size) (a b : List K) (ha : ∀ x ∈ a, ins x = true → P x)
    (hb : ∀ x ∈ b, ins x = true → P x) (hroom : distinct eq (b.filter ins) < size)
    (hfit : ∀ i : Nat, i < b.length → t.wrap (i : Int) = (i : Int)) {workers : Nat} {nt : Bool} {par : Option (List Nat)}
    (hs : ChunkSched workers a.length nt par) :
    ∃ out : List (Bool × Int), memberRun extra lost t ins hash eq size a b par = some (.arrays extra t (out.map some)) ∧
      Answers (fun y x => ins x = true ∧ ins y = true ∧ eq y x = true) a b t.inv out := by
  obtain ⟨tb, e, B⟩ := insertAll_spec (ins := ins) (val := fun i : Nat => t.wrap (i : Int)) L b []
    (fresh K Int size) (built_fresh P ins hash eq _ size) (by simpa using hb) (by simpa using hroom)
  have e' : insertAll ins hash eq (fun i : Nat => t.wrap (i : Int)) 0 b (fresh K Int size) = .ok tb := e
  let ans : K → Bool × Int := fun x => if ins x then
        match b.findIdx? (fun y => ins y && eq y x) with
        | some j => (true, (j : Int))
        | none => (false, t.inv)
      else (false, t.inv)
  have hone : ∀ x ∈ a, lookOne ins hash eq t.inv tb x = .ok (ans x) := by
    intro x hx
    unfold lookOne
    simp only [ans]
    by_cases hi : ins x = true
    · rw [if_pos hi, if_pos hi, built_find L B (by simpa using hroom) x (ha x hx hi)]
      simp only [List.nil_append]
      cases hf : b.findIdx? (fun y => ins y && eq y x) with
      | none => rfl
      | some j =>
        simp only [Option.map_some]
        have hj := (List.findIdx?_eq_some_iff_getElem.mp hf).1
        rw [hfit j hj]
    · rw [if_neg hi, if_neg hi]
  refine ⟨a.map ans, ?_, by simp, ?_⟩
  · unfold memberRun
    rw [e']
    dsimp only
    cases par with
    | none =>
      dsimp only
      rw [lookAll_ok hone]
    | some calls =>
      dsimp only
      cases a with
      | nil =>
        have := elemWork_exact (n := 0) (fun i => (([] : List K)[i]?).bind
          fun x => (lookOne ins hash eq t.inv tb x).toOption) (fun _ => (false, 0))
          (fun i hi => absurd hi (by omega)) hs
        exact congrArg (Option.map fun out => MemberReply.arrays extra t out) this
      | cons a0 as =>
        generalize hA : a0 :: as = A at *
        have := elemWork_exact (n := A.length) (fun i => (A[i]?).bind
          fun x => (lookOne ins hash eq t.inv tb x).toOption) (fun i => ans (A.getD i a0))
          (fun i hi => by
            rw [List.getElem?_eq_getElem hi, Option.bind_some, hone _ (List.getElem_mem hi)]
            simp [hi, Except.toOption]) hs
        rw [this]
        simp only [Option.map_some]
        congr 3
        apply List.ext_getElem?
        intro i
        by_cases hi : i < A.length
        · simp [hi]
        · rw [List.getElem?_eq_none (by simp; omega), List.getElem?_eq_none (by simp; omega)]
  · intro i x r hx hr
    rw [List.getElem?_map, hx] at hr
    simp only [Option.map_some, Option.some.injEq] at hr
    subst hr
    have hsame : ins x = true → ∀ y ∈ b, (ins y && eq y x) = true ↔
        (ins x = true ∧ ins y = true ∧ eq y x = true) := by
      intro hi y _; simp [hi]
    simp only [ans]
    by_cases hi : ins x = true
    · rw [if_pos hi]
      cases hf : b.findIdx? (fun y => ins y && eq y x) with
      | none => exact .inr ⟨rfl, rfl, findIdx?_none (hsame hi) hf⟩
      | some j => exact .inl ⟨rfl, j, rfl, findIdx?_firstAt (hsame hi) hf⟩
    · rw [if_neg hi]
      exact .inr ⟨rfl, rfl, fun y _ h => hi h.1⟩

theorem answers_map {K L : Type} (f : L → K) {same : K → K → Prop} {same' : L → L → Prop} {a b : List L} {bad : Int}
    {out : List (Bool × Int)} (h : ∀ x ∈ a, ∀ y ∈ b, same (f y) (f x) ↔ same' y x)
    (hc : Answers same (a.map f) (b.map f) bad out) : Answers same' a b bad out := by
  obtain ⟨h1, h2⟩ := hc
  refine ⟨by simpa using h1, fun i x r hx hr => ?_⟩
  have hxa := List.mem_of_getElem? hx
  rcases h2 i (f x) r (by rw [List.getElem?_map, hx]; rfl) hr with ⟨e, j, ej, hf⟩ | ⟨e, el, hn⟩
  · exact .inl ⟨e, j, ej, firstAt_congr (fun y hy => h x hxa y hy) (firstAt_map f hf)⟩
  · exact .inr ⟨e, el, fun y hy hs => hn (f y) (List.mem_map_of_mem hy) ((h x hxa y hy).mpr hs)⟩

/-! ## Different items -/

theorem countP_lt {α : Type} {p q : α → Bool} : ∀ {l : List α}, (∀ x ∈ l, p x = true → q x = true) → (∃ x ∈ l, q x = true ∧ p x = false) →
    l.countP p < l.countP q
  | [], _, h => by obtain ⟨x, hx, _⟩ := h; simp at hx
  | a :: l, h1, h2 => by
    have hle : l.countP p ≤ l.countP q := List.countP_mono_left fun x hx => h1 x (by simp [hx])
    obtain ⟨x, hx, hq, hp⟩ := h2
    rcases List.mem_cons.mp hx with rfl | hx
    · rw [List.countP_cons, List.countP_cons, hq, hp]; simp; omega
    · have ih := countP_lt (l := l) (fun x hx => h1 x (by simp [hx])) ⟨x, hx, hq, hp⟩
      rw [List.countP_cons, List.countP_cons]
      by_cases ha : p a = true
      · rw [ha, h1 a (by simp) ha]; omega
      · by_cases hb : q a = true <;> simp [ha, hb] <;> omega

theorem distinctFrom_cover {K : Type} (eq : K → K → Bool) (U : List K) : ∀ (l seen : List K), (∀ x ∈ l, x ∈ U ∧ eq x x = true) →
    distinctFrom eq seen l ≤ U.countP fun u => !seen.any fun x => eq x u
  | [], _, _ => by simp [distinctFrom]
  | k :: ks, seen, h => by
    have ih := distinctFrom_cover eq U ks (seen ++ [k]) fun x hx => h x (by simp [hx])
    obtain ⟨hk, hr⟩ := h k (by simp)
    rw [distinctFrom]
    by_cases hs : (seen.any fun x => eq x k) = true
    · rw [if_pos hs]
      have : (U.countP fun u => !(seen ++ [k]).any fun x => eq x u) ≤ U.countP fun u => !seen.any fun x => eq x u :=
        List.countP_mono_left fun x _ hx => by
          simp only [List.any_append, Bool.not_eq_true', Bool.or_eq_false_iff] at *
          exact hx.1
      omega
    · rw [if_neg hs]
      have : (U.countP fun u => !(seen ++ [k]).any fun x => eq x u) < U.countP fun u => !seen.any fun x => eq x u :=
        countP_lt (fun x _ hx => by
          simp only [List.any_append, Bool.not_eq_true', Bool.or_eq_false_iff] at *
          exact hx.1) ⟨k, hk, by simpa using hs, by simp [hr]⟩
      omega

/-- There are no more different items than in a list that has all of them. -/
theorem distinct_cover {K : Type} {eq : K → K → Bool} {U l : List K} (h : ∀ x ∈ l, x ∈ U ∧ eq x x = true) : distinct eq l ≤ U.length :=
  Nat.le_trans (distinctFrom_cover eq U l [] h) List.countP_le_length

/-! ## Sizes and types -/

theorem memberHint_nat (h n : Nat) : memberHint (h : Int) n = ((expected h n : Nat) : Int) := by
  unfold memberHint expected
  by_cases h0 : h = 0
  · subst h0; rfl
  · rw [if_neg h0, if_neg (by omega)]

theorem member_size {mode : Int} {isFloat : Bool} {factor want d : Nat} (hf : factor = if isFloat then 8 else 2) (hw : want ≤ 2 ^ 59)
    (h : RoomFor mode factor want d) : ∃ s, memberSize mode (want : Int) isFloat = some s ∧ d < s := by
  unfold memberSize
  rw [Int.toNat_natCast]
  rcases h with ⟨rfl, h⟩ | ⟨rfl, h3, h4⟩ | ⟨m1, m2, h3⟩
  · obtain ⟨s, k, e, _, h65, _, h2n, _⟩ := mask_size want isFloat hw
    refine ⟨s, by rw [if_pos rfl, e], ?_⟩
    rcases h with h | h
    · omega
    · cases isFloat <;> simp at hf h2n <;> subst hf <;> omega
  · obtain ⟨s, e, hlt, _⟩ := prime_size_partial want isFloat h4
    refine ⟨s, ?_, by omega⟩
    rw [if_neg (by omega), if_pos rfl, e]
    show (if s = 0 then none else some s) = some s
    rw [if_neg (by omega)]
  · obtain ⟨k, e, _, hk, _⟩ := powAbove_spec want (by omega) 64 0 (by omega) (by omega) (by intro j hj; omega)
    refine ⟨2 ^ k, by rw [if_neg m2, if_neg m1]; exact e, ?_⟩
    have := Nat.two_pow_pos k
    omega

theorem indexFor (n : Nat) : IndexFor n (indexType n) := by
  unfold IndexFor indexType
  repeat' split
  all_goals simp
  all_goals omega

theorem index_fits_max {n m i : Nat} (hn : max n m ≤ 2 ^ 63) (hi : i < m) : (indexType (max n m)).wrap (i : Int) = (i : Int) :=
  (index_fits hn (by omega)).1

theorem normTy_same (a b : Nat) : normTy a = normTy b ↔ SameTy a b := by
  unfold normTy SameTy
  simp only [List.mem_cons, Prod.mk.injEq, List.not_mem_nil, or_false]
  split <;> split <;> (try split) <;> (try split) <;> omega

theorem fits32 {v : Int} (h1 : -2147483648 ≤ v) (h2 : v < 2147483648) : fitsArg .i32 v = true := by
  unfold fitsArg
  rw [decide_eq_true_eq, show IT.i32.bits - 1 = 31 from rfl]
  omega

theorem call_passed {nums : List Int} {mode : Int} {hint : Nat} (h : Passed nums mode hint) (H : Nat → Nat → Nat) (HS : List Nat → Nat) (a b : CatArr)
    (par : Option (List Nat)) : isMemberCall H HS [a, b] nums par = memberChecked H HS mode (hint : Int) a b par := by
  obtain ⟨⟨h1, h2, h3⟩, h | h | h⟩ := h
  · obtain ⟨rfl, rfl, rfl⟩ := h
    rfl
  · obtain ⟨rfl, rfl⟩ := h
    unfold isMemberCall
    rw [if_neg (by simp)]
    dsimp only
    rw [if_pos (fits32 h1 h2)]
    rfl
  · subst h
    unfold isMemberCall
    rw [if_neg (by simp)]
    dsimp only
    rw [if_pos ⟨fits32 h1 h2, by
      unfold fitsArg
      rw [decide_eq_true_eq, show IT.i64.bits - 1 = 63 from rfl]
      omega⟩]

theorem checked_reads {H : Nat → Nat → Nat} {HS : List Nat → Nat} {mode hint : Int} {a b : CatArr} {x y : List (List UInt8)} {par : Option (List Nat)}
    (hty : SameTy a.ty b.ty) (hw : 0 < a.width) (ho : a.ty ≠ 17) (hx : a.read = some x) (hy : b.read = some y) :
    memberChecked H HS mode hint a b par = memberTyped H HS mode hint a b x y par := by
  unfold memberChecked
  rw [if_neg (by simpa using (normTy_same _ _).mpr hty), if_neg (by omega), if_neg (by unfold normTy; split <;> (try split) <;> omega), hx, hy]
  rfl

/-! ## Full tables -/

theorem upsert_some {K V : Type} {t : Slots K V} {h : Nat} (hh : h < t.length) (m : K → Bool) (k : K) (v : V) (f : V → V) :
    (∃ t' o, upsert t m h k v f = .ok (t', o) ∧ t'.length = t.length ∧ (∀ x ∈ stored t, x ∈ stored t') ∧ (∀ x ∈ stored t', x ∈ stored t ∨ x = k) ∧
      ∃ x ∈ stored t', m x = true ∨ x = k) ∨
    upsert t m h k v f = .error .full := by
  have hpf := probe_from t m h hh t.length 0 (by omega) (by omega) (fun e he => absurd he (by omega))
  rw [cyc_zero hh] at hpf
  unfold upsert
  rcases hpf with ⟨d, k', v', _, _, e, hat, hm, _⟩ | ⟨d, _, hd, e, hfree, _⟩ | ⟨e, _⟩
  · have hk' : k' ∈ stored t := mem_stored.mpr ⟨_, v', hat⟩
    refine .inl ⟨_, _, by rw [e], by simp, ?_, ?_, k', ?_, .inl hm⟩
    · intro x hx
      obtain ⟨q, w, hq⟩ := mem_stored.mp hx
      by_cases hqp : q = cyc t.length h d
      · subst hqp
        unfold At at hq hat
        rw [hq] at hat
        have : x = k' := by simpa using congrArg (fun o : Option (Option (K × V)) => o.bind (fun o => o.map Prod.fst)) hat
        subst this
        exact mem_stored.mpr ⟨_, f v', (at_set (at_lt (by unfold At; rw [hq]))).mpr (.inl ⟨rfl, rfl, rfl⟩)⟩
      · exact mem_stored.mpr ⟨q, w, (at_set (at_lt hat)).mpr (.inr ⟨hqp, hq⟩)⟩
    · intro x hx
      obtain ⟨q, w, hq⟩ := mem_stored.mp hx
      rcases (at_set (at_lt hat)).mp hq with ⟨_, rfl, _⟩ | ⟨_, hq⟩
      · exact .inl hk'
      · exact .inl (mem_stored.mpr ⟨q, w, hq⟩)
    · exact mem_stored.mpr ⟨_, f v', (at_set (at_lt hat)).mpr (.inl ⟨rfl, rfl, rfl⟩)⟩
  · have hp := cyc_lt hh hd
    refine .inl ⟨_, _, by rw [e], by simp, ?_, ?_, k, mem_stored.mpr ⟨_, v, (at_set hp).mpr (.inl ⟨rfl, rfl, rfl⟩)⟩, .inr rfl⟩
    · intro x hx
      obtain ⟨q, w, hq⟩ := mem_stored.mp hx
      refine mem_stored.mpr ⟨q, w, (at_set hp).mpr (.inr ⟨?_, hq⟩)⟩
      rintro rfl
      unfold At at hq
      rw [hfree] at hq
      simp at hq
    · intro x hx
      obtain ⟨q, w, hq⟩ := mem_stored.mp hx
      rcases (at_set hp).mp hq with ⟨_, rfl, _⟩ | ⟨_, hq⟩
      · exact .inr rfl
      · exact .inl (mem_stored.mpr ⟨q, w, hq⟩)
  · exact .inr (by rw [e])

theorem insertAll_some {K V : Type} {hash : K → Nat} {size : Nat} (hh : ∀ k, hash k < size) (eq : K → K → Bool) (val : Nat → V) :
    ∀ (i : Nat) (b : List K) (t : Slots K V), t.length = size →
    (∃ t', insertAll (fun _ => true) hash eq val i b t = .ok t' ∧ t'.length = size ∧ (∀ x ∈ stored t, x ∈ stored t') ∧
      (∀ x ∈ stored t', x ∈ stored t ∨ x ∈ b) ∧ ∀ k ∈ b, ∃ x ∈ stored t', eq x k = true ∨ x = k) ∨
    insertAll (fun _ => true) hash eq val i b t = .error .full
  | _, [], t, ht => .inl ⟨t, rfl, ht, fun x h => h, fun x h => .inl h, by simp⟩
  | i, k :: ks, t, ht => by
    rw [insertAll, if_pos rfl]
    rcases upsert_some (t := t) (h := hash k) (by rw [ht]; exact hh k) (fun x => eq x k) k (val i) id with ⟨t1, o, e, h1, h2, h3, z, hz, hzk⟩ | e
    · rw [e]
      dsimp only
      rcases insertAll_some hh eq val (i + 1) ks t1 (h1.trans ht) with ⟨t2, e2, g1, g2, g3, g4⟩ | e2
      · refine .inl ⟨t2, e2, g1, fun x hx => g2 x (h2 x hx), fun x hx => ?_, fun k' hk' => ?_⟩
        · rcases g3 x hx with h | h
          · rcases h3 x h with h | rfl
            · exact .inl h
            · exact .inr (by simp)
          · exact .inr (by simp [h])
        · rcases List.mem_cons.mp hk' with rfl | hk'
          · exact ⟨z, g2 z hz, hzk⟩
          · exact g4 k' hk'
      · exact .inr e2
    · rw [e]; exact .inr rfl

theorem insertAll_full {K V : Type} [DecidableEq K] {hash : K → Nat} {size : Nat} (hh : ∀ k, hash k < size) (eq : K → K → Bool) (val : Nat → V) (b U : List K)
    (heq : ∀ x ∈ b, ∀ y ∈ b, eq x y = true → x = y) (hU : U.Nodup) (hb : ∀ k ∈ U, k ∈ b) (hfull : size < U.length) :
    insertAll (fun _ => true) hash eq val 0 b (fresh K V size) = .error .full := by
  rcases insertAll_some hh eq val 0 b (fresh K V size) (by simp [fresh]) with ⟨t', _, h1, _, h3, h4⟩ | h
  · exfalso
    have hno : ∀ x, x ∉ stored (fresh K V size) := by
      intro x hx
      obtain ⟨q, w, hq⟩ := mem_stored.mp hx
      unfold At fresh at hq
      rw [List.getElem?_replicate] at hq
      split at hq <;> simp at hq
    have := nodup_subset_length hU (u := stored t') (fun x hx => by
      obtain ⟨z, hz, he⟩ := h4 x (hb x hx)
      rcases he with he | rfl
      · have hzb : z ∈ b := (h3 z hz).resolve_left (hno z)
        rw [← heq z hzb x (hb x hx) he]; exact hz
      · exact hz)
    have h5 := stored_length t'
    omega
  · exact h

theorem member_too_many {mode : Int} {want d : Nat} (hw : want ≤ 2 ^ 59) (h : TooMany mode want d) :
    ∃ s, memberSize mode (want : Int) false = some s ∧ 0 < s ∧ s < d := toomany_size hw h

end Riptide.Hash
