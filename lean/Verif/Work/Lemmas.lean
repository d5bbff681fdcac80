import Verif.Work.Model
import Verif.Common.Lists
/-! Helper lemmas and the inductive invariant for the worker pool. -/
namespace Riptide.Work
open List

/-! ### Geometry -/

theorem mask_eq (n : Nat) : n &&& mask = n % chunk := by
  have := Nat.and_two_pow_sub_one_eq_mod n 14
  simpa [mask, chunk] using this

theorem flatMap_range_range' (bs : Nat) (f : Nat → Nat) (k : Nat) (hf : ∀ i < k, f i = bs) :
    (List.range k).flatMap (fun b => List.range' (bs * b) (f b)) = List.range (bs * k) := by
  induction k with
  | zero => simp
  | succ k ih =>
    rw [List.range_succ, List.flatMap_append, ih (fun i hi => hf i (by omega))]
    simp [hf k (by omega), Nat.mul_succ, List.range_eq_range']
    have := List.range'_append (s := 0) (m := bs * k) (n := bs) (step := 1)
    simpa using this

theorem blocks_cover (len : Nat) :
    (List.range (blockLastGeneric len chunk)).flatMap (blockRows len chunk) = List.range len := by
  have hc : 0 < chunk := by decide
  generalize hk : blockLastGeneric len chunk = k
  unfold blockRows
  rw [hk]
  unfold blockLastGeneric at hk
  cases k with
  | zero =>
    have : len = 0 := by simp [chunk] at hk; omega
    simp [this]
  | succ k =>
    rw [List.range_succ, List.flatMap_append, flatMap_range_range' chunk _ k]
    · have hlast : blockLen len chunk (k+1) k = len - chunk * k ∧ chunk * k ≤ len := by
        by_cases h0 : len % chunk = 0
        · simp [blockLen, mask_eq, h0]
          simp only [chunk] at *; omega
        · simp [blockLen, mask_eq, h0]
          simp only [chunk] at *; omega
      simp only [List.flatMap_cons, List.flatMap_nil, List.append_nil, hlast.1]
      have := List.range'_append (s := 0) (m := chunk * k) (n := len - chunk * k) (step := 1)
      simp only [Nat.zero_add, Nat.one_mul] at this
      rw [List.range_eq_range', List.range_eq_range', this]
      congr 1; have := hlast.2; omega
    · intro i hi
      simp only [blockLen]; rw [if_neg (by omega)]

theorem segLoop_length (d k low rem : Nat) : (segLoop d k low rem).length = k := by
  induction k generalizing low rem with
  | zero => rfl
  | succ k ih => simp only [segLoop]; split <;> simp [ih]

/-- Consecutive ranges starting at `low`. -/
theorem segLoop_flat (d k low rem : Nat) (h : rem ≤ k) :
    (segLoop d k low rem).flatMap (fun p => List.range' p.1 (p.2 - p.1))
      = List.range' low (d * k + rem) := by
  induction k generalizing low rem with
  | zero => have : rem = 0 := by omega
            simp [segLoop, this]
  | succ k ih =>
    simp only [segLoop]
    split
    · rw [List.flatMap_cons, ih _ _ (by omega)]
      have := List.range'_append (s := low) (m := d+1) (n := d * k + (rem-1)) (step := 1)
      simp only [Nat.one_mul] at this
      have e : low + d + 1 - low = d + 1 := by omega
      have e2 : low + d + 1 = low + (d+1) := by omega
      simp only [e]; rw [e2, this]; congr 1; rw [Nat.mul_succ]; omega
    · have e : low + d - low = d := by omega
      rw [List.flatMap_cons, ih _ _ (by omega)]
      have := List.range'_append (s := low) (m := d) (n := d * k + rem) (step := 1)
      simp only [Nat.one_mul] at this
      simp only [e]; rw [this]; congr 1; rw [Nat.mul_succ]; omega

theorem segLoop_ordered (d k low rem : Nat) : ∀ p ∈ segLoop d k low rem, low ≤ p.1 ∧ p.1 ≤ p.2 ∧
    p.2 - p.1 ≤ d + 1 ∧ d ≤ p.2 - p.1 := by
  induction k generalizing low rem with
  | zero => simp [segLoop]
  | succ k ih =>
    intro p hp
    simp only [segLoop] at hp
    split at hp <;> simp only [List.mem_cons] at hp <;> rcases hp with rfl | hp
    · simp; omega
    · have := ih _ _ p hp; omega
    · simp
    · have := ih _ _ p hp; omega

/-! ### Protocol invariant -/

theorem split_at {l : List α} {i : Nat} {a : α} (h : l[i]? = some a) :
    ∃ pre post, l = pre ++ a :: post ∧ ∀ x, l.set i x = pre ++ x :: post := by
  induction l generalizing i with
  | nil => simp at h
  | cons b l ih =>
    cases i with
    | zero => simp at h; subst h; exact ⟨[], l, by simp, by simp⟩
    | succ i =>
      simp at h
      obtain ⟨pre, post, h1, h2⟩ := ih h
      exact ⟨b :: pre, post, by simp [h1], by intro x; simp [h2]⟩

/-- A worker in this state may touch (now or later, without re-checking) the current item. -/
def WPc.holdsItem : WPc → Bool
  | .ticket => true
  | .claim => true
  | .inWork _ _ => true
  | _ => false

/-- Upper bound carried by a worker that has read `WorkIndex`. -/
def WPc.sawBound (m : Nat) : WPc → Prop
  | .sawIndex w => w ≤ m
  | _ => True

/-- Does the main thread have an operation that is not yet marked complete? -/
def MPc.active : MPc → Bool
  | .published => true
  | .inWork _ => true
  | .waiting => true
  | _ => false

/-- Is this worker running block `b`? -/
def WPc.runs (b : Nat) : WPc → Bool
  | .inWork (.run c) _ => c == b
  | _ => false

/-- Is the main thread running block `b`? -/
def MPc.runs (b : Nat) : MPc → Nat
  | .inWork (.run c) => if c = b then 1 else 0
  | _ => 0

section simps
variable (b m w : Nat) (d : Bool) (l : Loop)
@[simp] theorem c1 : WPc.asleep.counted = false := rfl
@[simp] theorem c2 : WPc.awake.counted = true := rfl
@[simp] theorem c3 : (WPc.sawIndex w).counted = true := rfl
@[simp] theorem c4 : WPc.ticket.counted = true := rfl
@[simp] theorem c5 : WPc.claim.counted = true := rfl
@[simp] theorem c6 : (WPc.inWork l d).counted = true := rfl
@[simp] theorem c7 : WPc.noWork.counted = true := rfl
@[simp] theorem h1 : WPc.asleep.holdsItem = false := rfl
@[simp] theorem h2 : WPc.awake.holdsItem = false := rfl
@[simp] theorem h3 : (WPc.sawIndex w).holdsItem = false := rfl
@[simp] theorem h4 : WPc.ticket.holdsItem = true := rfl
@[simp] theorem h5 : WPc.claim.holdsItem = true := rfl
@[simp] theorem h6 : (WPc.inWork l d).holdsItem = true := rfl
@[simp] theorem h7 : WPc.noWork.holdsItem = false := rfl
@[simp] theorem s1 : WPc.asleep.sawBound m = True := rfl
@[simp] theorem s2 : WPc.awake.sawBound m = True := rfl
@[simp] theorem s3 : (WPc.sawIndex w).sawBound m = (w ≤ m) := rfl
@[simp] theorem s4 : WPc.ticket.sawBound m = True := rfl
@[simp] theorem s5 : WPc.claim.sawBound m = True := rfl
@[simp] theorem s6 : (WPc.inWork l d).sawBound m = True := rfl
@[simp] theorem s7 : WPc.noWork.sawBound m = True := rfl
@[simp] theorem r1 : WPc.asleep.runs b = false := rfl
@[simp] theorem r2 : WPc.awake.runs b = false := rfl
@[simp] theorem r3 : (WPc.sawIndex w).runs b = false := rfl
@[simp] theorem r4 : WPc.ticket.runs b = false := rfl
@[simp] theorem r5 : WPc.claim.runs b = false := rfl
@[simp] theorem r6 : (WPc.inWork .fetch d).runs b = false := rfl
@[simp] theorem r7 : WPc.noWork.runs b = false := rfl
@[simp] theorem r8 : (WPc.inWork (.run w) d).runs b = (w == b) := rfl
@[simp] theorem m1 : MPc.idle.runs b = 0 := rfl
@[simp] theorem m2 : MPc.published.runs b = 0 := rfl
@[simp] theorem m3 : (MPc.inWork .fetch).runs b = 0 := rfl
@[simp] theorem m4 : (MPc.inWork (.run w)).runs b = if w = b then 1 else 0 := rfl
@[simp] theorem m5 : MPc.waiting.runs b = 0 := rfl
@[simp] theorem m6 : MPc.joining.runs b = 0 := rfl
@[simp] theorem a1 : MPc.idle.active = false := rfl
@[simp] theorem a2 : MPc.published.active = true := rfl
@[simp] theorem a3 : (MPc.inWork l).active = true := rfl
@[simp] theorem a4 : MPc.waiting.active = true := rfl
@[simp] theorem a5 : MPc.joining.active = false := rfl
end simps

/-- How often block `b` occurs among finished and running blocks. -/
def St.occ (s : St) (b : Nat) : Nat :=
  s.finished.count b + s.main.runs b + s.workers.countP (WPc.runs b)

theorem count_inProgress (s : St) (b : Nat) :
    (s.finished ++ s.inProgress).count b = s.occ b := by
  have hm : s.main.running.toList.count b = s.main.runs b := by
    cases s.main with
    | inWork l => cases l <;> simp [MPc.running, MPc.runs, List.count_singleton]
    | _ => simp [MPc.running]
  have hw : ∀ l : List WPc, (l.filterMap WPc.running).count b = l.countP (WPc.runs b) := by
    intro l
    induction l with
    | nil => rfl
    | cons a l ih =>
      rw [List.countP_cons, ← ih, List.filterMap_cons]
      cases a with
      | inWork l d => cases l <;> simp [WPc.running, List.count_cons]
      | _ => simp [WPc.running]
  simp [St.inProgress, List.count_append, hm, hw, St.occ]
  omega

structure Inv (s : St) : Prop where
  idx : s.workIndex = s.completed + (if s.main.active then 1 else 0)
  aw : s.awakened = s.workers.countP WPc.counted
  saw : ∀ w ∈ s.workers, w.sawBound s.workIndex
  hold : s.main = .idle → ∀ w ∈ s.workers, w.holdsItem = false
  occ_le : ∀ b, s.occ b ≤ if b < s.blockNext ∧ b < s.blockLast then 1 else 0
  cnt : s.blocksCompleted = s.finished.length
  full : s.main ≠ .idle → s.interrupted = false →
    ∀ b, s.occ b = if b < s.blockNext ∧ b < s.blockLast then 1 else 0
  wait : s.main = .waiting ∨ s.main = .joining → s.interrupted = false → s.blockLast ≤ s.blockNext
  done : s.main = .joining → s.interrupted = false → s.blockLast ≤ s.blocksCompleted

theorem countP_mid (p : α → Bool) (pre post : List α) (x : α) :
    (pre ++ x :: post).countP p = (pre ++ post).countP p + (if p x then 1 else 0) := by
  simp [List.countP_append, List.countP_cons]; omega

theorem forall_mid (P : α → Prop) (pre post : List α) (x : α) :
    (∀ w ∈ pre ++ x :: post, P w) ↔ P x ∧ ∀ w ∈ pre ++ post, P w := by
  simp only [List.mem_append, List.mem_cons]
  constructor
  · intro h; exact ⟨h x (by simp), fun w hw => h w (by rcases hw with h | h <;> simp [h])⟩
  · rintro ⟨h1, h2⟩ w (h | rfl | h)
    · exact h2 w (by simp [h])
    · exact h1
    · exact h2 w (by simp [h])

theorem split_at' {l : List α} {i : Nat} {a : α} (h : l[i]? = some a) :
    ∃ rest : List α, (∀ p : α → Bool, l.countP p = rest.countP p + (if p a then 1 else 0)) ∧
      (∀ P : α → Prop, (∀ w ∈ l, P w) ↔ P a ∧ ∀ w ∈ rest, P w) ∧
      (∀ (x : α) (p : α → Bool), (l.set i x).countP p = rest.countP p + (if p x then 1 else 0)) ∧
      (∀ (x : α) (P : α → Prop), (∀ w ∈ l.set i x, P w) ↔ P x ∧ ∀ w ∈ rest, P w) := by
  obtain ⟨pre, post, e1, e2⟩ := split_at h
  refine ⟨pre ++ post, ?_, ?_, ?_, ?_⟩
  · intro p; rw [e1]; exact countP_mid _ _ _ _
  · intro p; rw [e1]; exact forall_mid _ _ _ _
  · intro x p; rw [e2]; exact countP_mid _ _ _ _
  · intro x p; rw [e2]; exact forall_mid _ _ _ _

theorem Inv.init (n : Nat) : Inv (init n) := by
  have h : ∀ p : WPc → Bool, p .asleep = false → (List.replicate n WPc.asleep).countP p = 0 := by
    intro p hp; simp [List.countP_eq_zero, hp]
  constructor <;> simp [Work.init, St.occ]
  rw [h _ rfl]; rfl

theorem Inv.env {s t : St} (h : Inv s) (st : EnvStep s t) : Inv t := by
  cases st with
  | interrupt =>
    exact ⟨h.idx, h.aw, h.saw, h.hold, h.occ_le, h.cnt, by simp, by simp, by simp⟩
  | clearInterrupt hm =>
    exact ⟨h.idx, h.aw, h.saw, h.hold, h.occ_le, h.cnt, by simp [hm], by simp [hm], by simp [hm]⟩
  | submit last hm =>
    have hidle := h.hold hm
    have hrun : ∀ b, s.workers.countP (WPc.runs b) = 0 := by
      intro b
      rw [List.countP_eq_zero]
      intro w hw
      have := hidle w hw
      cases w with
      | inWork l d => simp at this
      | _ => simp
    have hidx := h.idx
    have hsaw := h.saw
    refine ⟨by simp_all, h.aw, ?_, by simp, ?_, rfl, ?_, by simp, by simp⟩
    · intro w hw
      have := hsaw w hw
      cases w <;> simp at *
      omega
    · simp [St.occ, hrun]
    · simp [St.occ, hrun]
  | wWake i hi =>
    obtain ⟨rest, k1, k2, k3, k4⟩ := split_at' hi
    obtain ⟨idx, aw, saw, hold, occ_le, cnt, full, wait, done⟩ := h
    simp only [St.occ, k1, k2] at aw saw hold occ_le full
    constructor <;> simp only [St.occ, k3, k4]
    all_goals clear hi k1 k2 k3 k4
    all_goals grind [c1, c2, h1, h2, s1, s2, r1, r2]

theorem Inv.thread {s t : St} (h : Inv s) (st : ThreadStep s t) : Inv t := by
  obtain ⟨idx, aw, saw, hold, occ_le, cnt, full, wait, done⟩ := h
  cases st with
  | mSetWakeup k hm => constructor <;> simp_all [St.occ]
  | mFetch hm ok =>
    constructor <;> simp_all [St.occ]
    · intro b; have := full b; grind
    · intro b; have := full b; grind
  | mFetchNone hm no =>
    constructor <;> simp_all [St.occ]
    · intro b; have := occ_le b; grind
    · intro hi b; have := full hi b; grind
    · intro hi; grind
  | mComplete b hm =>
    constructor <;> simp_all [St.occ, List.count_cons]
    all_goals grind
  | mWaitDone hm ok =>
    constructor <;> simp_all [St.occ]
    grind
  | mReturn hm ok =>
    constructor <;> simp_all [St.occ]
    intro w hw
    have h0 : s.workers.countP WPc.counted = 0 := by omega
    have hc := (List.countP_eq_zero.1 h0) w hw
    clear aw saw occ_le full h0
    cases w <;> simp_all
  | wReadIndex i hi =>
    obtain ⟨rest, k1, k2, k3, k4⟩ := split_at' hi
    simp only [St.occ, k1, k2] at aw saw hold occ_le full
    constructor <;> simp only [St.occ, k3, k4]
    all_goals clear hi k1 k2 k3 k4
    all_goals grind [c3, c2, h3, h2, s3, s2, r3, r2]
  | wReadCompleted i w hi =>
    obtain ⟨rest, k1, k2, k3, k4⟩ := split_at' hi
    simp only [St.occ, k1, k2] at aw saw hold occ_le full
    split <;> constructor <;> simp only [St.occ, k3, k4]
    all_goals clear hi k1 k2 k3 k4
    all_goals grind [c3, c4, c7, h3, h4, h7, s3, s4, s7, r3, r4, r7, a1]
  | wTicket i hi =>
    obtain ⟨rest, k1, k2, k3, k4⟩ := split_at' hi
    simp only [St.occ, k1, k2] at aw saw hold occ_le full
    split <;> constructor <;> simp only [St.occ, k3, k4]
    all_goals clear hi k1 k2 k3 k4
    all_goals grind [c5, c4, c7, h5, h4, h7, s5, s4, s7, r5, r4, r7]
  | wEnter i hi =>
    obtain ⟨rest, k1, k2, k3, k4⟩ := split_at' hi
    simp only [St.occ, k1, k2] at aw saw hold occ_le full
    constructor <;> simp only [St.occ, k3, k4]
    all_goals clear hi k1 k2 k3 k4
    all_goals grind [c5, c6, h5, h6, s5, s6, r5, r6]
  | wFetch i d hi ok =>
    obtain ⟨rest, k1, k2, k3, k4⟩ := split_at' hi
    have hne : s.main ≠ .idle := by
      intro hm
      have := hold hm _ (List.mem_of_getElem? hi)
      simp at this
    simp only [St.occ, k1, k2] at aw saw hold occ_le full
    constructor <;> simp only [St.occ, k3, k4]
    all_goals clear hi k1 k2 k3 k4
    all_goals grind [c6, h6, s6, r6, r8]
  | wFetchNone i d hi no =>
    obtain ⟨rest, k1, k2, k3, k4⟩ := split_at' hi
    simp only [St.occ, k1, k2] at aw saw hold occ_le full
    cases d <;> constructor <;> simp only [St.occ, k3, k4]
    all_goals clear hi k1 k2 k3 k4
    all_goals grind [c6, h6, s6, r6, c2, h2, s2, r2, c7, h7, s7, r7]
  | wComplete i b d hi =>
    obtain ⟨rest, k1, k2, k3, k4⟩ := split_at' hi
    simp only [St.occ, k1, k2] at aw saw hold occ_le full
    constructor <;> simp only [St.occ, k3, k4, List.count_cons]
    all_goals clear hi k1 k2 k3 k4
    all_goals grind [c6, h6, s6, r6, r8]
  | wSleep i hi =>
    obtain ⟨rest, k1, k2, k3, k4⟩ := split_at' hi
    simp only [St.occ, k1, k2] at aw saw hold occ_le full
    constructor <;> simp only [St.occ, k3, k4]
    all_goals clear hi k1 k2 k3 k4
    all_goals grind [c1, c7, h1, h7, s1, s7, r1, r7]

theorem Reachable.inv {n : Nat} {s : St} (h : Reachable n s) : Inv s := by
  induction h with
  | init => exact Inv.init n
  | step _ st ih => exact st.elim ih.env ih.thread

theorem Inv.nodup {s : St} (h : Inv s) : (s.finished ++ s.inProgress).Nodup := by
  rw [List.nodup_iff_count]
  intro b
  rw [count_inProgress]
  have := h.occ_le b
  split at this <;> omega

theorem Inv.bound {s : St} (h : Inv s) :
    ∀ b ∈ s.finished ++ s.inProgress, b < s.blockNext ∧ b < s.blockLast := by
  intro b hb
  have h1 := List.count_pos_iff.2 hb
  rw [count_inProgress] at h1
  have := h.occ_le b
  split at this
  · assumption
  · omega

theorem Inv.finished_perm {s : St} (h : Inv s) (hc : s.blockLast ≤ s.blocksCompleted) :
    s.finished.Perm (List.range s.blockLast) := by
  apply perm_range_of_nodup
  · exact (List.nodup_append.1 h.nodup).1
  · intro b hb; exact (h.bound b (by simp [hb])).2
  · rw [← h.cnt]; exact hc

theorem Inv.idle_inProgress {s : St} (h : Inv s) (hm : s.main = .idle) : s.inProgress = [] := by
  have := h.hold hm
  simp only [St.inProgress, hm, MPc.running, Option.toList_none, List.nil_append,
    List.filterMap_eq_nil_iff]
  intro w hw
  have := this w hw
  cases w with
  | inWork l d => simp at this
  | _ => rfl

/-- Nothing is counted awake. -/
theorem all_asleep {s : St} (h : Inv s) (h0 : s.awakened = 0) : ∀ w ∈ s.workers, w = .asleep := by
  intro w hw
  have hz : s.workers.countP WPc.counted = 0 := by have := h.aw; omega
  have hc := (List.countP_eq_zero.1 hz) w hw
  clear hz
  cases w <;> simp_all

theorem progress_of_awake {s : St} {w : WPc} (hw : w ∈ s.workers) (hc : w ≠ .asleep) :
    ∃ t, ThreadStep s t := by
  obtain ⟨i, hi⟩ := List.mem_iff_getElem?.1 hw
  cases w with
  | asleep => exact absurd rfl hc
  | awake => exact ⟨_, .wReadIndex s i hi⟩
  | sawIndex w => exact ⟨_, .wReadCompleted s i w hi⟩
  | ticket => exact ⟨_, .wTicket s i hi⟩
  | claim => exact ⟨_, .wEnter s i hi⟩
  | noWork => exact ⟨_, .wSleep s i hi⟩
  | inWork l d =>
    cases l with
    | run b => exact ⟨_, .wComplete s i b d hi⟩
    | fetch =>
      by_cases ok : s.blockNext < s.blockLast ∧ s.interrupted = false
      · exact ⟨_, .wFetch s i d hi ok⟩
      · exact ⟨_, .wFetchNone s i d hi ok⟩

theorem Inv.progress {s : St} (h : Inv s) (hm : s.main ≠ .idle) : ∃ t, ThreadStep s t := by
  by_cases hall : ∀ w ∈ s.workers, w = .asleep
  · have haw : s.awakened = 0 := by
      rw [h.aw]
      have : s.workers.countP WPc.counted = 0 := by
        rw [List.countP_eq_zero]; intro w hw; simp [hall w hw]
      omega
    cases e : s.main with
    | idle => exact absurd e hm
    | published => exact ⟨_, .mSetWakeup s 0 e⟩
    | joining => exact ⟨_, .mReturn s e haw⟩
    | inWork l =>
      cases l with
      | run b => exact ⟨_, .mComplete s b e⟩
      | fetch =>
        by_cases ok : s.blockNext < s.blockLast ∧ s.interrupted = false
        · exact ⟨_, .mFetch s e ok⟩
        · exact ⟨_, .mFetchNone s e ok⟩
    | waiting =>
      cases hi : s.interrupted with
      | true => exact ⟨_, .mWaitDone s e (.inr hi)⟩
      | false =>
        refine ⟨_, .mWaitDone s e (.inl ?_)⟩
        have hnext := h.wait (.inl e) hi
        have hfull := h.full hm hi
        have hp : s.finished.Perm (List.range s.blockLast) := by
          rw [List.perm_iff_count]
          intro b
          have hb := hfull b
          have hz : s.workers.countP (WPc.runs b) = 0 := by
            rw [List.countP_eq_zero]; intro w hw; simp [hall w hw]
          have hr : (List.range s.blockLast).count b = if b < s.blockLast then 1 else 0 := by
            split
            · rename_i hlt
              have := List.nodup_range (n := s.blockLast)
              rw [List.Nodup.count this]; simp [hlt]
            · rw [List.count_eq_zero]; simpa using by omega
          rw [hr]
          simp only [St.occ, e, m5, hz] at hb
          split at hb <;> split <;> omega
        rw [h.cnt, hp.length_eq, List.length_range]; exact Nat.le_refl _
  · simp only [Classical.not_forall] at hall
    obtain ⟨w, hw, hne⟩ := hall
    exact progress_of_awake hw hne

/-! ### Termination -/

def WPc.rank : WPc → Nat
  | .asleep => 0
  | .noWork => 1
  | .inWork .fetch false => 2
  | .claim => 3
  | .ticket => 4
  | .sawIndex _ => 5
  | .awake => 6
  | .inWork .fetch true => 7
  | .inWork (.run _) _ => 8

def MPc.rank : MPc → Nat
  | .idle => 0
  | .joining => 1
  | .waiting => 2
  | .inWork .fetch => 3
  | .published => 4
  | .inWork (.run _) => 4

def St.measure (s : St) : Nat :=
  7 * (s.blockLast - s.blockNext) + s.main.rank + (s.workers.map WPc.rank).sum

theorem sum_set {l : List WPc} {i : Nat} {a : WPc} (h : l[i]? = some a) :
    ∃ r, (l.map WPc.rank).sum = r + a.rank ∧
      ∀ x, ((l.set i x).map WPc.rank).sum = r + x.rank := by
  obtain ⟨pre, post, e1, e2⟩ := split_at h
  refine ⟨(pre.map WPc.rank).sum + (post.map WPc.rank).sum, ?_, ?_⟩
  · rw [e1]; simp; omega
  · intro x; rw [e2]; simp; omega

theorem ThreadStep.measure_lt {s t : St} (st : ThreadStep s t) : t.measure < s.measure := by
  cases st with
  | mSetWakeup k hm => simp [St.measure, hm, MPc.rank]
  | mFetch hm ok => simp [St.measure, hm, MPc.rank]; omega
  | mFetchNone hm no => simp [St.measure, hm, MPc.rank]; omega
  | mComplete b hm => simp [St.measure, hm, MPc.rank]
  | mWaitDone hm ok => simp [St.measure, hm, MPc.rank]
  | mReturn hm ok => simp [St.measure, hm, MPc.rank]
  | wReadIndex i hi =>
    obtain ⟨r, e1, e2⟩ := sum_set hi; simp only [St.measure, e1, e2]; simp [WPc.rank]
  | wReadCompleted i w hi =>
    obtain ⟨r, e1, e2⟩ := sum_set hi; simp only [St.measure, e1, e2]
    split <;> simp [WPc.rank]
  | wTicket i hi =>
    obtain ⟨r, e1, e2⟩ := sum_set hi; simp only [St.measure, e1, e2]
    split <;> simp [WPc.rank]
  | wEnter i hi => obtain ⟨r, e1, e2⟩ := sum_set hi; simp only [St.measure, e1, e2]; simp [WPc.rank]
  | wFetch i d hi ok =>
    obtain ⟨r, e1, e2⟩ := sum_set hi; simp only [St.measure, e1, e2]
    cases d <;> simp [WPc.rank] <;> omega
  | wFetchNone i d hi no =>
    obtain ⟨r, e1, e2⟩ := sum_set hi; simp only [St.measure, e1, e2]
    cases d <;> simp [WPc.rank] <;> omega
  | wComplete i b d hi => obtain ⟨r, e1, e2⟩ := sum_set hi; simp only [St.measure, e1, e2]; simp [WPc.rank]
  | wSleep i hi => obtain ⟨r, e1, e2⟩ := sum_set hi; simp only [St.measure, e1, e2]; simp [WPc.rank]

end Riptide.Work
