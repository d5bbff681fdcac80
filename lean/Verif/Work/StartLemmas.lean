import Verif.Work.Start
import Verif.Work.StartSpec
import Verif.Work.Props

namespace Riptide.Work

/-! ### Counting the processors -/

theorem maskLoop_bit (isset : Nat → Bool) (k i : Nat) (m : BitVec 64) (h : i + k ≤ 63) (j : Nat) :
    (maskLoop isset k i m (BitVec.twoPow 64 i)).getLsbD j =
      (m.getLsbD j || (decide (i ≤ j) && decide (j < i + k) && isset j)) := by
  induction k generalizing i m with
  | zero =>
    simp only [maskLoop, Nat.add_zero]
    have : (decide (i ≤ j) && decide (j < i)) = false := by simp
    simp [this]
  | succ k ih =>
    rw [maskLoop]
    have hs : (BitVec.twoPow 64 i) <<< 1 = BitVec.twoPow 64 (i + 1) := by
      apply BitVec.eq_of_getLsbD_eq
      intro b hb
      simp only [BitVec.getLsbD_shiftLeft, BitVec.getLsbD_twoPow]
      by_cases e : b = i + 1
      · subst e; simp; omega
      · have e1 : decide (i + 1 = b) = false := by simp; omega
        by_cases hb1 : b < 1
        · simp [e1, hb1]
        · have e2 : decide (i = b - 1) = false := by simp; omega
          simp [e1, e2]
    rw [hs, ih (i + 1) _ (by omega)]
    by_cases e : j = i
    · subst e
      have e2 : decide (j + 1 ≤ j) = false := by simp
      cases hi : isset j with
      | true =>
        simp [BitVec.getLsbD_or, BitVec.getLsbD_twoPow]
        omega
      | false => simp [e2]
    · have e1 : (decide (i + 1 ≤ j) && decide (j < i + 1 + k)) =
          (decide (i ≤ j) && decide (j < i + (k + 1))) := by
        rw [Bool.eq_iff_iff]; simp; omega
      rw [e1]
      split
      · simp only [BitVec.getLsbD_or, BitVec.getLsbD_twoPow]
        have e2 : decide (i = j) = false := by simp; omega
        simp [e2]
      · rfl

theorem mask_bit (isset : Nat → Bool) (j : Nat) :
    (affinityMasks isset).1.getLsbD j = (decide (j < 63) && isset j) := by
  have h := maskLoop_bit isset 63 0 0 (by omega) j
  have e : BitVec.twoPow 64 0 = 1 := by decide
  rw [e] at h
  simp only [affinityMasks, h]
  simp

theorem countLoop_eq (fuel : Nat) (m : BitVec 64) (c : Nat)
    (h : ∀ j, fuel ≤ j → m.getLsbD j = false) :
    countLoop fuel m c = c + (List.range fuel).countP (fun j => m.getLsbD j) := by
  induction fuel generalizing m c with
  | zero => simp [countLoop]
  | succ fuel ih =>
    rw [countLoop]
    split
    · rename_i e
      subst e
      have : (List.range (fuel + 1)).countP (fun j => (0 : BitVec 64).getLsbD j) = 0 := by
        rw [List.countP_eq_zero]; intro x _; simp
      omega
    · rw [ih _ _ (by intro j hj; simp [BitVec.getLsbD_ushiftRight]; exact h _ (by omega))]
      rw [List.range_succ_eq_map, List.countP_cons, List.countP_map]
      have e1 : ((fun j => m.getLsbD j) ∘ Nat.succ) = fun j => (m >>> 1).getLsbD j := by
        funext j; simp [BitVec.getLsbD_ushiftRight, Nat.succ_eq_add_one, Nat.add_comm]
      rw [e1]
      have e2 : (m &&& 1 ≠ 0) ↔ m.getLsbD 0 = true := by
        constructor
        · intro hne
          cases h0 : m.getLsbD 0 with
          | true => rfl
          | false =>
            exfalso; apply hne
            apply BitVec.eq_of_getLsbD_eq
            intro b hb
            rw [BitVec.getLsbD_and]
            by_cases b0 : b = 0
            · subst b0; rw [h0]; simp
            · have : (1 : BitVec 64).getLsbD b = false := by
                rw [show (1 : BitVec 64) = BitVec.twoPow 64 0 from by decide, BitVec.getLsbD_twoPow]
                simp; omega
              rw [this]; simp
        · intro h0 hz
          have := congrArg (fun v => BitVec.getLsbD v 0) hz
          simp only [BitVec.getLsbD_and, h0] at this
          exact absurd this (by decide)
      by_cases h0 : m.getLsbD 0 = true
      · rw [if_pos (e2.2 h0), if_pos h0]; omega
      · rw [if_neg (fun x => h0 (e2.1 x)), if_neg h0]; omega

theorem perm_of_same {l m : List Nat} (hl : l.Nodup) (hm : m.Nodup) (h : ∀ x, x ∈ l ↔ x ∈ m) :
    l.Perm m := by
  rw [List.perm_iff_count]
  intro x
  rw [List.Nodup.count hl, List.Nodup.count hm]
  simp [h x]

theorem count_processors {allowed : Nat → Bool} {cpus : List Nat} (h : Processors allowed cpus) :
    countLoop 64 (affinityMasks allowed).1 0 = (cpus.filter (· < 63)).length := by
  rw [countLoop_eq _ _ _ (by intro j hj; rw [mask_bit]; simp; omega), Nat.zero_add]
  have e : (fun j => (affinityMasks allowed).1.getLsbD j) =
      fun j => (decide (j < 63) && allowed j) := by funext j; exact mask_bit _ _
  rw [e, List.countP_eq_length_filter]
  apply List.Perm.length_eq
  apply perm_of_same
  · exact List.Pairwise.filter _ List.nodup_range
  · exact List.Pairwise.filter _ h.once
  · intro x
    simp only [List.mem_filter, List.mem_range, Bool.and_eq_true, decide_eq_true_eq, h.those]
    constructor
    · rintro ⟨_, h1, h2⟩; exact ⟨h2, h1⟩
    · rintro ⟨h1, h2⟩; exact ⟨by omega, h2, h1⟩

/-! ### Starting -/

/-- Is the thread counted in `ThreadsAwakened`? -/
def TPc.counted : TPc → Bool
  | .awake _ => true
  | .noWork _ => true
  | _ => false

/-- How many threads have been asked for. -/
def BPc.asked (count : Nat) : BPc → Nat
  | .creating i => i
  | _ => count

/-- Has the first wait ended? -/
def BPc.past : BPc → Bool
  | .waitIdle => true
  | .done => true
  | _ => false

structure BootInv (count : Nat) (fails : Nat → Bool) (s : Boot) : Prop where
  nums : (s.threads.filterMap TPc.core).Perm (List.range s.running)
  aw : s.awakened = s.threads.countP TPc.counted
  made : s.threads.length = (List.range (s.main.asked count)).countP (fun j => !fails j)
  le : s.main.asked count ≤ count
  past : s.main.past = true → count ≤ s.running

theorem set_core {l : List TPc} {k : Nat} {a b : TPc} (h : l[k]? = some a) (e : a.core = b.core) :
    (l.set k b).filterMap TPc.core = l.filterMap TPc.core := by
  obtain ⟨pre, post, e1, e2⟩ := split_at h
  rw [e2, e1]
  simp [List.filterMap_append, List.filterMap_cons, e]

theorem set_counted {l : List TPc} {k : Nat} {a : TPc} (h : l[k]? = some a) (b : TPc) :
    (l.set k b).countP TPc.counted + (if a.counted then 1 else 0) =
      l.countP TPc.counted + (if b.counted then 1 else 0) := by
  obtain ⟨rest, c1, _, c3, _⟩ := split_at' h
  rw [c1, c3]; omega

theorem BootInv.boot (count : Nat) (fails : Nat → Bool) : BootInv count fails boot := by
  constructor <;> simp [Work.boot, BPc.asked, BPc.past]

theorem BootInv.step {count : Nat} {fails : Nat → Bool} {s t : Boot} (h : BootInv count fails s)
    (st : BootStep count fails s t) : BootInv count fails t := by
  have hmade := h.made
  have hle := h.le
  have hpast := h.past
  have haw := h.aw
  cases st with
  | create i hm hi ok =>
    rw [hm] at hmade
    refine ⟨?_, ?_, ?_, ?_, by simp [BPc.past]⟩
    · simp only [List.filterMap_append]
      rw [show [TPc.fresh].filterMap TPc.core = [] from rfl, List.append_nil]
      exact h.nums
    · simpa [List.countP_append, TPc.counted] using h.aw
    · simp only [BPc.asked] at hmade ⊢
      rw [List.range_succ, List.countP_append]
      simp [hmade, ok]
    · simp only [BPc.asked]; omega
  | createFails i hm hi bad =>
    rw [hm] at hmade
    refine ⟨h.nums, h.aw, ?_, ?_, by simp [BPc.past]⟩
    · simp only [BPc.asked] at hmade ⊢
      rw [List.range_succ, List.countP_append]
      simp [hmade, bad]
    · simp only [BPc.asked]; omega
  | created hm =>
    rw [hm] at hmade
    exact ⟨h.nums, h.aw, hmade, Nat.le_refl _, by simp [BPc.past]⟩
  | allRun hm ok =>
    rw [hm] at hmade
    exact ⟨h.nums, h.aw, hmade, Nat.le_refl _, fun _ => ok⟩
  | allIdle hm ok =>
    rw [hm] at hmade hpast
    exact ⟨h.nums, h.aw, hmade, Nat.le_refl _, fun _ => hpast rfl⟩
  | number k hk =>
    refine ⟨?_, ?_, by simpa using hmade, hle, fun x => Nat.le_succ_of_le (hpast x)⟩
    · obtain ⟨pre, post, e1, e2⟩ := split_at hk
      have hn := h.nums
      simp only [e2]
      rw [e1] at hn
      simp only [List.filterMap_append, List.filterMap_cons, TPc.core] at hn ⊢
      rw [List.range_succ]
      exact List.perm_middle.trans ((List.Perm.cons _ hn).trans (List.perm_append_singleton _ _).symm)
    · have := set_counted hk (.numbered s.running)
      simp [TPc.counted] at this
      simp only
      omega
  | first k c hk =>
    refine ⟨by simp only; rw [set_core (b := .awake c) hk rfl]; exact h.nums, ?_, by simpa using hmade, hle, hpast⟩
    have := set_counted hk (.awake c)
    simp [TPc.counted] at this
    simp only
    omega
  | look k c hk =>
    refine ⟨by simp only; rw [set_core (b := .noWork c) hk rfl]; exact h.nums, ?_, by simpa using hmade, hle, hpast⟩
    have := set_counted hk (.noWork c)
    simp [TPc.counted] at this
    simp only
    omega
  | sleep k c hk =>
    refine ⟨by simp only; rw [set_core (b := .asleep c) hk rfl]; exact h.nums, ?_, by simpa using hmade, hle, hpast⟩
    have := set_counted hk (.asleep c)
    simp [TPc.counted] at this
    simp only
    omega

theorem BootInv.wake {count : Nat} {fails : Nat → Bool} {s t : Boot} (h : BootInv count fails s)
    (st : BootWake s t) : BootInv count fails t := by
  have hmade := h.made
  have haw := h.aw
  cases st with
  | wake k c hk =>
    refine ⟨by simp only; rw [set_core (b := .awake c) hk rfl]; exact h.nums, ?_, by simpa using hmade, h.le, h.past⟩
    have := set_counted hk (.awake c)
    simp [TPc.counted] at this
    simp only
    omega

theorem BootReach.inv {count : Nat} {fails : Nat → Bool} {s : Boot} (h : BootReach count fails s) :
    BootInv count fails s := by
  induction h with
  | start => exact BootInv.boot _ _
  | step _ st ih => exact ih.step st
  | wake _ st ih => exact ih.wake st

theorem BootInv.running_eq {count : Nat} {fails : Nat → Bool} {s : Boot}
    (h : BootInv count fails s) : s.running = (s.threads.filterMap TPc.core).length := by
  rw [h.nums.length_eq, List.length_range]

theorem filterMap_core_le (l : List TPc) : (l.filterMap TPc.core).length ≤ l.length :=
  List.length_filterMap_le ..

theorem filterMap_full (l : List TPc) (h : l.length ≤ (l.filterMap TPc.core).length) :
    l.map TPc.core = (l.filterMap TPc.core).map some := by
  induction l with
  | nil => rfl
  | cons a l ih =>
    have hl := filterMap_core_le l
    cases e : a.core with
    | none =>
      rw [List.filterMap_cons, e] at h
      simp at h; omega
    | some c =>
      rw [List.filterMap_cons, e] at h ⊢
      simp at h
      simp [ih (by omega), e]

/-- Past the first wait, nothing has failed and every thread has its number. -/
theorem BootInv.full {count : Nat} {fails : Nat → Bool} {s : Boot} (h : BootInv count fails s)
    (hp : s.main.past = true) :
    s.threads.length = count ∧ s.running = count ∧
      s.threads.length ≤ (s.threads.filterMap TPc.core).length ∧
      ∀ i < count, fails i = false := by
  have h1 := h.running_eq
  have h2 := h.past hp
  have h3 := filterMap_core_le s.threads
  have h4 := h.made
  have h5 := List.countP_le_length (p := fun j => !fails j) (l := List.range (s.main.asked count))
  have h6 : s.main.asked count = count := by
    cases e : s.main <;> simp_all [BPc.past, BPc.asked]
  rw [h6] at h4 h5
  rw [List.length_range] at h5
  refine ⟨by omega, by omega, by omega, ?_⟩
  have h7 : (List.range count).countP (fun j => !fails j) = (List.range count).length := by
    rw [List.length_range]; omega
  rw [List.countP_eq_length] at h7
  intro i hi
  simpa using h7 i (by simpa using hi)

/-! ### Termination of the loading -/

def TPc.rank : TPc → Nat
  | .fresh => 4
  | .numbered _ => 3
  | .awake _ => 2
  | .noWork _ => 1
  | .asleep _ => 0

def BPc.rank (count : Nat) : BPc → Nat
  | .creating i => 5 * (count - i) + 3
  | .waitRunning => 2
  | .waitIdle => 1
  | .done => 0

def Boot.measure (count : Nat) (s : Boot) : Nat :=
  s.main.rank count + (s.threads.map TPc.rank).sum

theorem rank_set {l : List TPc} {i : Nat} {a : TPc} (h : l[i]? = some a) :
    ∃ r, (l.map TPc.rank).sum = r + a.rank ∧
      ∀ x, ((l.set i x).map TPc.rank).sum = r + x.rank := by
  obtain ⟨pre, post, e1, e2⟩ := split_at h
  refine ⟨(pre.map TPc.rank).sum + (post.map TPc.rank).sum, ?_, ?_⟩
  · rw [e1]; simp; omega
  · intro x; rw [e2]; simp; omega

theorem BootStep.measure_lt {count : Nat} {fails : Nat → Bool} {s t : Boot}
    (st : BootStep count fails s t) : t.measure count < s.measure count := by
  cases st with
  | create i hm hi ok =>
    simp only [Boot.measure, hm, BPc.rank, List.map_append, List.sum_append]
    simp [TPc.rank]; omega
  | createFails i hm hi bad => simp only [Boot.measure, hm, BPc.rank]; omega
  | created hm => simp [Boot.measure, hm, BPc.rank]
  | allRun hm ok => simp [Boot.measure, hm, BPc.rank]
  | allIdle hm ok => simp [Boot.measure, hm, BPc.rank]
  | number k hk => obtain ⟨r, e1, e2⟩ := rank_set hk; simp only [Boot.measure, e1, e2]; simp [TPc.rank]
  | first k c hk => obtain ⟨r, e1, e2⟩ := rank_set hk; simp only [Boot.measure, e1, e2]; simp [TPc.rank]
  | look k c hk => obtain ⟨r, e1, e2⟩ := rank_set hk; simp only [Boot.measure, e1, e2]; simp [TPc.rank]
  | sleep k c hk => obtain ⟨r, e1, e2⟩ := rank_set hk; simp only [Boot.measure, e1, e2]; simp [TPc.rank]

theorem BootInv.progress {count : Nat} {fails : Nat → Bool} {s : Boot} (h : BootInv count fails s)
    (ok : ∀ i < count, fails i = false) (hm : s.main ≠ .done) :
    ∃ t, BootStep count fails s t := by
  by_cases hall : ∀ w ∈ s.threads, ∃ c, w = .asleep c
  · have haw : s.awakened = 0 := by
      rw [h.aw]
      have : s.threads.countP TPc.counted = 0 := by
        rw [List.countP_eq_zero]; intro w hw
        obtain ⟨c, e⟩ := hall w hw
        simp [e, TPc.counted]
      omega
    cases e : s.main with
    | done => exact absurd e hm
    | waitIdle => exact ⟨_, .allIdle s e haw⟩
    | creating i =>
      have hle := h.le
      rw [e] at hle
      simp only [BPc.asked] at hle
      by_cases hi : i < count
      · exact ⟨_, .create s i e hi (ok i hi)⟩
      · have : i = count := by omega
        subst this
        exact ⟨_, .created s e⟩
    | waitRunning =>
      refine ⟨_, .allRun s e ?_⟩
      have hmade := h.made
      rw [e] at hmade
      simp only [BPc.asked] at hmade
      have h1 : (List.range count).countP (fun j => !fails j) = count := by
        have : (List.range count).countP (fun j => !fails j) = (List.range count).length := by
          rw [List.countP_eq_length]
          intro x hx
          simp [ok x (by simpa using hx)]
        rw [this, List.length_range]
      have h2 : (s.threads.filterMap TPc.core).length = s.threads.length := by
        have : ∀ l : List TPc, (∀ w ∈ l, ∃ c, w = .asleep c) →
            (l.filterMap TPc.core).length = l.length := by
          intro l hl
          induction l with
          | nil => rfl
          | cons a l ih =>
            obtain ⟨c, e⟩ := hl a (by simp)
            subst e
            rw [List.filterMap_cons]
            simp only [TPc.core, List.length_cons]
            rw [ih (fun w hw => hl w (by simp [hw]))]
        exact this _ hall
      have h3 := h.running_eq
      omega
  · simp only [Classical.not_forall] at hall
    obtain ⟨w, hw, hne⟩ := hall
    obtain ⟨k, hk⟩ := List.mem_iff_getElem?.1 hw
    cases w with
    | fresh => exact ⟨_, .number s k hk⟩
    | numbered c => exact ⟨_, .first s k c hk⟩
    | awake c => exact ⟨_, .look s k c hk⟩
    | noWork c => exact ⟨_, .sleep s k c hk⟩
    | asleep c => exact absurd ⟨c, rfl⟩ hne

/-! ### The state left to the operations -/

/-- The workers of the protocol, those not created yet being asleep. -/
def Boot.padded (count : Nat) (s : Boot) : St :=
  { init 0 with awakened := s.awakened,
                workers := s.threads.map TPc.inPool ++
                  List.replicate (count - s.threads.length) .asleep }

theorem pad_get {count : Nat} {s : Boot} {k : Nat} {a : TPc} (h : s.threads[k]? = some a) :
    (s.padded count).workers[k]? = some a.inPool := by
  have hk : k < s.threads.length := (List.getElem?_eq_some_iff.1 h).1
  simp only [Boot.padded]
  rw [List.getElem?_append_left (by simpa using hk)]
  simp [h]

theorem pad_set {count : Nat} {s : Boot} {k : Nat} (hk : k < s.threads.length) (b : TPc) :
    (s.threads.set k b).map TPc.inPool ++
        List.replicate (count - (s.threads.set k b).length) .asleep =
      (s.padded count).workers.set k b.inPool := by
  simp only [Boot.padded]
  rw [List.set_append_left _ _ (by simpa using hk), List.length_set, List.map_set]

theorem BootReach.padded {count : Nat} {fails : Nat → Bool} {s : Boot}
    (h : BootReach count fails s) : Reachable count (s.padded count) := by
  induction h with
  | start => exact Reachable.init
  | @step s t hs st ih =>
    cases st with
    | create i hm hi ok =>
      have hinv := hs.inv
      have hlen : s.threads.length < count := by
        have h1 := hinv.made
        rw [hm] at h1
        have h2 := List.countP_le_length (p := fun j => !fails j) (l := List.range i)
        simp only [BPc.asked] at h1
        rw [List.length_range] at h2
        omega
      have e : ({ s with main := BPc.creating (i + 1), threads := s.threads ++ [.fresh] } :
          Boot).padded count = s.padded count := by
        simp only [Boot.padded, List.map_append, List.length_append, List.length_singleton,
          List.map_cons, List.map_nil, TPc.inPool, List.append_assoc]
        have : List.replicate (count - s.threads.length) WPc.asleep =
            [WPc.asleep] ++ List.replicate (count - (s.threads.length + 1)) WPc.asleep := by
          rw [show count - s.threads.length = (count - (s.threads.length + 1)) + 1 from by omega,
            List.replicate_succ]
          rfl
        rw [this]
      rw [e]; exact ih
    | createFails i hm hi bad => exact ih
    | created hm => exact ih
    | allRun hm ok => exact ih
    | allIdle hm ok => exact ih
    | number k hk =>
      have hlt := (List.getElem?_eq_some_iff.1 hk).1
      have hg := pad_get (count := count) hk
      have e : ({ s with running := s.running + 1, threads := s.threads.set k (.numbered s.running) } :
          Boot).padded count = s.padded count := by
        have h1 := pad_set (count := count) hlt (.numbered s.running)
        have h2 : (s.padded count).workers.set k (TPc.numbered s.running).inPool =
            (s.padded count).workers := by
          obtain ⟨hk', e'⟩ := List.getElem?_eq_some_iff.1 hg
          have : (TPc.numbered s.running).inPool = (s.padded count).workers[k] := by rw [e']; rfl
          rw [this, List.set_getElem_self]
        rw [h2] at h1
        simp only [Boot.padded] at h1 ⊢
        rw [h1]
      rw [e]; exact ih
    | first k c hk =>
      have hlt := (List.getElem?_eq_some_iff.1 hk).1
      have hst := EnvStep.wWake (s.padded count) k (pad_get hk)
      have := ih.step (.inl hst)
      have h1 := pad_set (count := count) hlt (.awake c)
      simp only [Boot.padded] at h1 this ⊢
      rw [h1]; exact this
    | look k c hk =>
      have hlt := (List.getElem?_eq_some_iff.1 hk).1
      have r1 := ih.step (.inr (ThreadStep.wReadIndex (s.padded count) k (pad_get hk)))
      have hlt' : k < (s.padded count).workers.length := (List.getElem?_eq_some_iff.1 (pad_get hk)).1
      have r2 := r1.step (.inr (ThreadStep.wReadCompleted _ k (s.padded count).workIndex
        (by simp only; rw [List.getElem?_set_self hlt'])))
      have h1 := pad_set (count := count) hlt (.noWork c)
      simp only [Boot.padded, List.set_set] at h1 r2 ⊢
      rw [h1]; exact r2
    | sleep k c hk =>
      have hlt := (List.getElem?_eq_some_iff.1 hk).1
      have := ih.step (.inr (ThreadStep.wSleep (s.padded count) k (pad_get hk)))
      have h1 := pad_set (count := count) hlt (.asleep c)
      simp only [Boot.padded] at h1 this ⊢
      rw [h1]; exact this
  | @wake s t hs st ih =>
    cases st with
    | wake k c hk =>
      have hlt := (List.getElem?_eq_some_iff.1 hk).1
      have := ih.step (.inl (EnvStep.wWake (s.padded count) k (pad_get hk)))
      have h1 := pad_set (count := count) hlt (.awake c)
      simp only [Boot.padded] at h1 this ⊢
      rw [h1]; exact this

/-! ### The forked child -/

theorem Inv.step {s t : St} (h : Inv s) (st : Step s t) : Inv t := by
  rcases st with st | st
  · exact h.env st
  · exact h.thread st

theorem Inv.runs {s t : St} (h : Inv s) (r : Runs s t) : Inv t := by
  induction r with
  | refl => exact h
  | step _ st ih => exact ih.step st

theorem Inv.forked {s : St} (h : Inv s) (hm : s.main = .idle) (h0 : s.awakened = 0) :
    Inv (forked s) := by
  refine ⟨h.idx, ?_, ?_, ?_, ?_, h.cnt, ?_, ?_, ?_⟩
  · simp [Work.forked, h0]
  · simp [Work.forked]
  · simp [Work.forked]
  · intro b
    refine Nat.le_trans ?_ (h.occ_le b)
    simp only [St.occ, Work.forked, List.countP_nil]
    omega
  · intro hne; exact absurd hm hne
  · intro hw; simp only [Work.forked, hm] at hw; rcases hw with hw | hw <;> cases hw
  · intro hw; simp only [Work.forked, hm] at hw; cases hw

/-- Nobody is left to take a count back. -/
structure Lonely (a : Int) (s : St) : Prop where
  none : s.workers = []
  aw : s.awakened = a

theorem Lonely.step {a : Int} {s t : St} (h : Lonely a s) (ha : a ≠ 0) (hm : s.main ≠ .idle)
    (st : Step s t) : Lonely a t ∧ t.main ≠ .idle := by
  have hn := h.none
  have haw := h.aw
  rcases st with st | st
  · cases st <;> simp_all <;> exact ⟨by simp_all, by simp_all⟩
  · cases st <;> simp_all <;> exact ⟨by simp_all, by simp_all⟩

end Riptide.Work
