import Verif.Ema.EntryProps
import Verif.Ema.ExtremeProps
import Verif.Ema.NormalProps
/-! C134: the values which `EmaAll32` returns. -/
namespace Riptide.Ema.Entry
open Riptide.Ema.Entry.Spec

section
variable {r : Req} {a : Arr} {uniq : Nat} {func number : Int} {time inc rst : Obj}

theorem bytes_flat (n : Nat) (o : Obj) (h : IsMask n o) (hf : ∀ b, o = .arr b → Flat b) :
    (o = .pyNone ∧ bytesOf n o = none) ∨ ∃ b, o = .arr b ∧ bytesOf n o = some b.vals ∧ b.vals.length = n := by
  cases o with
  | pyNone => exact .inl ⟨rfl, rfl⟩
  | other => exact absurd h id
  | arr b =>
    refine .inr ⟨b, rfl, ?_, h.2⟩
    rw [bytesOf, ← h.2, hf b rfl]

/-- The job of a sound call. -/
theorem sound_job (h : Sound r a uniq func number time inc rst) :
    (jobOf a r.cols uniq func number time inc rst).key = a.vals ∧
    Ok (jobOf a r.cols uniq func number time inc rst).masks a.vals uniq a.vals.length ∧
    (jobOf a r.cols uniq func number time inc rst).masks.incAt = flag true inc ∧
    (jobOf a r.cols uniq func number time inc rst).masks.rstAt = flag false rst := by
  have hi := bytes_flat a.vals.length inc h.good.inc h.incFlat
  have hr := bytes_flat a.vals.length rst h.good.rst h.rstFlat
  refine ⟨h.keyFlat, ⟨⟨?_, ?_⟩, rfl, h.le⟩, ?_, ?_⟩
  · intro l hl
    rcases hi with ⟨_, e⟩ | ⟨b, _, e, hb⟩
    · simp only [jobOf, e, Option.map_none] at hl; cases hl
    · simp only [jobOf, e, Option.map_some, Option.some.injEq] at hl
      subst hl; simpa using hb
  · intro l hl
    rcases hr with ⟨_, e⟩ | ⟨b, _, e, hb⟩
    · simp only [jobOf, e, Option.map_none] at hl; cases hl
    · simp only [jobOf, e, Option.map_some, Option.some.injEq] at hl
      subst hl; simpa using hb
  · funext i
    rcases hi with ⟨hx, e⟩ | ⟨b, hx, e, hb⟩
    · simp only [Masks.incAt, jobOf, e, Option.map_none]; rw [hx]; rfl
    · simp only [Masks.incAt, jobOf, e, Option.map_some]; rw [hx, flag, List.getD_eq_getElem?_getD]
  · funext i
    rcases hr with ⟨hx, e⟩ | ⟨b, hx, e, hb⟩
    · simp only [Masks.rstAt, jobOf, e, Option.map_none]; rw [hx]; rfl
    · simp only [Masks.rstAt, jobOf, e, Option.map_some]; rw [hx, flag, List.getD_eq_getElem?_getD]

/-- If every column gives a result with a property, the call gives the list of these results. -/
theorem call_columns (fa : Arith) (h : Sound r a uniq func number time inc rst) {workers : Nat} {nt : Bool} {calls : List Nat}
    (hs : ColSched workers (entries r.cols).length nt calls) (P : Obj → Ret → Prop)
    (hp : ∀ o ∈ entries r.cols, ∃ v, callCol fa (jobOf a r.cols uniq func number time inc rst) (colFor o) = some v ∧ P o v) :
    ∃ outs : List Ret, emaAll fa calls r = .done outs ∧ outs.length = (entries r.cols).length ∧
      ∀ (i : Nat) (o : Obj), (entries r.cols)[i]? = some o → ∃ v, outs[i]? = some v ∧ P o v := by
  have hne : (jobOf a r.cols uniq func number time inc rst).cols ≠ [] := by
    simpa [jobOf] using h.any
  have hm : (jobOf a r.cols uniq func number time inc rst).cols.mapM
      (callCol fa (jobOf a r.cols uniq func number time inc rst)) =
      some ((jobOf a r.cols uniq func number time inc rst).cols.map fun c =>
        (callCol fa (jobOf a r.cols uniq func number time inc rst) c).getD .pyNone) := by
    apply mapM_some
    intro c hc
    obtain ⟨o, ho, rfl⟩ := List.mem_map.1 (show c ∈ (entries r.cols).map colFor from hc)
    obtain ⟨v, hv, _⟩ := hp o ho
    rw [hv]; rfl
  refine ⟨(jobOf a r.cols uniq func number time inc rst).cols.map fun c =>
      (callCol fa (jobOf a r.cols uniq func number time inc rst) c).getD .pyNone, ?_, ?_, ?_⟩
  · rw [call_good fa calls r a uniq func number time inc rst h.good, runJob_perm fa _ hne (by simpa [jobOf] using hs.perm), hm]
  · simp [jobOf]
  · intro i o ho
    obtain ⟨v, hv, hpv⟩ := hp o (List.mem_of_getElem? ho)
    refine ⟨v, ?_, hpv⟩
    rw [List.getElem?_map, show (jobOf a r.cols uniq func number time inc rst).cols = (entries r.cols).map colFor from rfl,
      List.getElem?_map, ho, Option.map_some, Option.map_some, hv]
    rfl

/-- A column runs its function when there is one. -/
theorem col_run (fa : Arith) (h : Sound r a uniq func number time inc rst) (o : Obj) (k : Kern)
    (hk : kernOf (funcOf func) (tyOf o) (timeType time) = some k) (hsz : k.U.size = GroupBy.Entry.freshItem k.out) :
    callCol fa (jobOf a r.cols uniq func number time inc rst) (colFor o) =
      (runKern fa k number (jobOf a r.cols uniq func number time inc rst).masks a.vals ((elems o).take a.vals.length)
        ((bytesOf a.vals.length time).getD []) uniq a.vals.length).map (.array k.out) := by
  unfold callCol
  rw [show (jobOf a r.cols uniq func number time inc rst).func = func from rfl,
    show (jobOf a r.cols uniq func number time inc rst).timeTy = timeType time from rfl,
    show (colFor o).ty = tyOf o from rfl, hk]
  dsimp only
  rw [if_neg (by
    rintro (hx | hx)
    · have : ((uniq : Nat) : Int) < 0 := hx
      omega
    · omega), (sound_job h).1]
  rfl

theorem col_none (fa : Arith) (j : Job) (o : Obj) (hk : kernOf (funcOf j.func) (tyOf o) j.timeTy = none) :
    callCol fa j (colFor o) = some Ret.pyNone := by
  unfold callCol
  rw [show (colFor o).ty = tyOf o from rfl, hk]

theorem funcOf_small (v : Int) (h0 : 0 ≤ v) (h1 : v < 2 ^ 32) : funcOf v = v := Int.emod_eq_of_lt h0 h1

theorem take_long (h : Sound r a uniq func number time inc rst) (o : Obj) (ho : o ∈ entries r.cols) :
    ((elems o).take a.vals.length).length = a.vals.length := by
  have := h.long o ho
  rw [List.length_take]; omega

theorem live_lt (key : Nat → Int) (inc rst : Nat → Bool) (i j : Nat) (h : j ∈ Riptide.Ema.Spec.live key inc rst i) : j < i + 1 := by
  unfold Riptide.Ema.Spec.live at h
  simpa using (List.mem_filter.1 h).1

/-- The rows which count are those of the column itself, whose rows beyond the key are not read. -/
theorem counted_take (a : Arr) (inc rst o : Obj) (i : Nat) (hi : i < a.vals.length) :
    (Riptide.Ema.Spec.live (keyAt a.vals) (flag true inc) (flag false rst) i).map
      (fun j => ((elems o).take a.vals.length).getD j 0) = counted a inc rst o i := by
  unfold counted
  apply List.map_congr_left
  intro j hj
  have := live_lt _ _ _ _ _ hj
  rw [List.getD_eq_getElem?_getD, List.getD_eq_getElem?_getD, List.getElem?_take, if_pos (by omega)]

/-- The integer type of the function is that of the column. -/
theorem whole_it (ty : Nat) (t : IT) (h : whole ty = some t) :
    ∃ c, GroupBy.Entry.inOf ty = some c ∧ itOf c = some t ∧ (∀ n, sumKern n ty = some ⟨n, c, if t.signed then .i64 else .u64, none,
      sumTy t⟩) ∧ ∀ n, extKern n ty = some ⟨n, c, c, none, ty⟩ := by
  have h10 : ty ≤ 10 := by
    unfold whole at h
    by_cases h0 : ty = 0
    · omega
    · rw [if_neg h0] at h
      by_cases h1 : ty ≤ 10
      · exact h1
      · rw [if_neg h1] at h; cases h
  have : ty = 0 ∨ ty = 1 ∨ ty = 2 ∨ ty = 3 ∨ ty = 4 ∨ ty = 5 ∨ ty = 6 ∨ ty = 7 ∨ ty = 8 ∨ ty = 9 ∨ ty = 10 := by omega
  rcases this with h' | h' | h' | h' | h' | h' | h' | h' | h' | h' | h' <;> subst h' <;> cases h <;>
    exact ⟨_, rfl, rfl, fun n => rfl, fun n => rfl⟩

theorem wide_of (t : IT) : wide t = if t.signed then .i64 else .u64 := rfl

/-- Keys of all rows, also those without a group, are used as positions: extremes without masks, and the averages with a start. -/
def NeedsKeys (k : Kern) (m : Masks) : Prop :=
  k.name = .normal ∨ k.name = .weighted ∨
    ((k.name = .nanMin ∨ k.name = .nanMax ∨ k.name = .min ∨ k.name = .max) ∧ m.inc = none ∧ m.rst = none)

theorem decay_inside (m : Masks) (key src time : List Int) (uniq n : Nat) (h : Ok m key uniq n) (hs : src.length = n)
    (ht : time.length = n) : avgInside .decay m key src time uniq n = true := by
  have hcell : ∀ i, i < n → ∀ c : Int × Int, decayCell .i64 (fun _ => (1 : Int)) m src time c i =
      some ((decayCell .i64 (fun _ => (1 : Int)) m src time c i).getD c) := by
    intro i hi c
    have e1 := getElem?_getD src i 0 (by omega)
    have e2 := getElem?_getD time i 0 (by omega)
    obtain ⟨inc, rst⟩ := m
    cases inc with
    | none =>
      cases rst with
      | none => simp only [decayCell]; rw [e1, e2]; rfl
      | some b =>
        have e3 := getElem?_getD b i false (by have := h.fit.2 b rfl; omega)
        simp only [decayCell]; rw [e1, e2, e3]; rfl
    | some l =>
      have e4 := getElem?_getD l i false (by have := h.fit.1 l rfl; omega)
      cases rst with
      | none => simp only [decayCell]; rw [e1, e2, e4]; simp only [Option.bind_some]; split <;> rfl
      | some b =>
        have e3 := getElem?_getD b i false (by have := h.fit.2 b rfl; omega)
        simp only [decayCell]; rw [e1, e2, e3, e4]; simp only [Option.bind_some]; split <;> rfl
  obtain ⟨res, e, _⟩ := guarded_spec (fun (c : Int × Int) i => (decayCell .i64 (fun _ => (1 : Int)) m src time c i).getD c)
    ((0 : Int), (0 : Int)) key (keyAt key) uniq n (some (0 : Int)) (decayCell .i64 (fun _ => (1 : Int)) m src time)
    (fun c _ => decayOut m c) h.key hcell h.key_le
  simp only [avgInside, emaDecay]
  rw [e]; rfl

theorem normal_inside (m : Masks) (key src time : List Int) (uniq n : Nat) (h : Ok m key uniq n) (hs : src.length = n)
    (ht : time.length = n) (h0 : ∀ k ∈ key, 0 ≤ k) : avgInside .normal m key src time uniq n = true := by
  have hx : ∀ i, i < n → src[i]? = some (src.getD i 0) := fun i hi => getElem?_getD src i 0 (by omega)
  obtain ⟨ws, e1, e2, _⟩ := firstValues_spec key src uniq n (List.replicate (uniq + 1) 0) (by simp) h.key hx
    fun i hi => ⟨h0 _ (List.mem_of_getElem? (h.key i hi)), h.key_le i hi⟩
  have hcell : ∀ i, i < n → ∀ c : NCell Int, normalCell .i64 (fun _ => (1 : Int)) m src time c i =
      some ((normalCell .i64 (fun _ => (1 : Int)) m src time c i).getD c) := by
    intro i hi c
    have e1 := getElem?_getD src i 0 (by omega)
    have e2 := getElem?_getD time i 0 (by omega)
    obtain ⟨inc, rst⟩ := m
    cases inc with
    | none =>
      cases rst with
      | none => simp only [normalCell]; rw [e1, e2]; rfl
      | some b =>
        have e3 := getElem?_getD b i false (by have := h.fit.2 b rfl; omega)
        simp only [normalCell]; rw [e1, e2, e3]; rfl
    | some l =>
      have e4 := getElem?_getD l i false (by have := h.fit.1 l rfl; omega)
      cases rst with
      | none => simp only [normalCell]; rw [e1, e2, e4]; simp only [Option.bind_some]; split <;> rfl
      | some b =>
        have e3 := getElem?_getD b i false (by have := h.fit.2 b rfl; omega)
        simp only [normalCell]; rw [e1, e2, e3, e4]; simp only [Option.bind_some]; split <;> rfl
  obtain ⟨res, e, _⟩ := guarded_from (fun (c : NCell Int) i => (normalCell .i64 (fun _ => (1 : Int)) m src time c i).getD c)
    (fun k => ⟨ws.getD k.toNat 0, farPast .i64, 0⟩) key (keyAt key) uniq n (some (0 : Int))
    (normalCell .i64 (fun _ => (1 : Int)) m src time) (fun c _ => c.ema) (ws.map fun e => (⟨e, farPast .i64, 0⟩ : NCell Int))
    ⟨by simp [e2], fun k _ hk => by
      rw [List.getElem?_map, getElem?_getD ws k 0 (by omega)]; rfl⟩ h.key hcell h.key_le
  simp only [avgInside, emaNormal]
  rw [e1, Option.bind_some, e]; rfl

theorem weighted_inside (m : Masks) (key src time : List Int) (uniq n : Nat) (h : Ok m key uniq n) (hs : src.length = n)
    (h0 : ∀ k ∈ key, 0 ≤ k) : avgInside .weighted m key src time uniq n = true := by
  have hx : ∀ i, i < n → src[i]? = some (src.getD i 0) := fun i hi => getElem?_getD src i 0 (by omega)
  obtain ⟨ws, e1, e2, _⟩ := firstValues_spec key src uniq n (List.replicate (uniq + 1) 0) (by simp) h.key hx
    fun i hi => ⟨h0 _ (List.mem_of_getElem? (h.key i hi)), h.key_le i hi⟩
  have hcell : ∀ i, i < n → ∀ c : Int, weightedCell (1 : Int) m src c i = some ((weightedCell (1 : Int) m src c i).getD c) := by
    intro i hi c
    have e1 := getElem?_getD src i 0 (by omega)
    obtain ⟨inc, rst⟩ := m
    cases inc with
    | none =>
      cases rst with
      | none => simp only [weightedCell]; rw [e1]; rfl
      | some b =>
        have e3 := getElem?_getD b i false (by have := h.fit.2 b rfl; omega)
        simp only [weightedCell]; rw [e1, e3]; rfl
    | some l =>
      have e4 := getElem?_getD l i false (by have := h.fit.1 l rfl; omega)
      cases rst with
      | none => simp only [weightedCell]; rw [e1, e4]; simp only [Option.bind_some]; split <;> rfl
      | some b =>
        have e3 := getElem?_getD b i false (by have := h.fit.2 b rfl; omega)
        simp only [weightedCell]; rw [e1, e3, e4]; simp only [Option.bind_some]; split <;> rfl
  obtain ⟨res, e, _⟩ := guarded_from (fun (c : Int) i => (weightedCell (1 : Int) m src c i).getD c)
    (fun k => ws.getD k.toNat 0) key (keyAt key) uniq n (some (0 : Int))
    (weightedCell (1 : Int) m src) (fun c _ => c) ws
    ⟨e2, fun k _ hk => getElem?_getD ws k 0 (by omega)⟩ h.key hcell h.key_le
  simp only [avgInside, emaWeighted]
  rw [e1, Option.bind_some, e]; rfl

/-- The extremes run for any order. -/
theorem extremes_run (k : Kind Int) (m : Masks) (key src : List Int) (uniq n : Nat) (h : Ok m key uniq n) (hs : src.length = n)
    (h0 : m.inc = none → m.rst = none → ∀ j ∈ key, 0 ≤ j) :
    (∃ items, cumNanExtreme k m key src uniq n = some items ∧ items.length = n) ∧
    ∃ items, cumExtreme k m key src uniq n = some items ∧ items.length = n := by
  constructor
  · obtain ⟨out, h1, h2, _⟩ := extremeLoop_spec m key uniq n
      (cellFun m.incAt m.rstAt (fun j => src.getD j 0) (nanAdd k) fun _ x => x) k.inv
      (maskedCell m (nanAdd k) (fun _ x => x) src) id h h0
      (fun i hi c => maskedCell_eq m (nanAdd k) _ src _ n i h.fit hi (getElem?_getD src i 0 (by omega)) c)
    exact ⟨out, h1, h2⟩
  · obtain ⟨out, h1, h2, _⟩ := extremeLoop_spec m key uniq n
      (cellFun m.incAt m.rstAt (fun j => src.getD j 0) (strictAdd k) fun _ x => (x, true)) (k.inv, false)
      (maskedCell m (strictAdd k) (fun _ x => (x, true)) src) Prod.fst h h0
      (fun i hi c => maskedCell_eq m (strictAdd k) _ src _ n i h.fit hi (getElem?_getD src i 0 (by omega)) c)
    exact ⟨out, h1, h2⟩

theorem nth_ok {m : Masks} {key : List Int} {uniq n : Nat} (h : Ok m key uniq n) : Ok ⟨m.inc, none⟩ key uniq n :=
  ⟨⟨h.fit.1, fun l hl => by cases hl⟩, h.len, h.le⟩

/-- Every function stays inside of its arrays and has an item for each row. -/
theorem kern_runs (fa : Arith) (k : Kern) (param : Int) (m : Masks) (key src time : List Int) (uniq n : Nat) (h : Ok m key uniq n)
    (hs : src.length = n) (ht : k.name = .decay ∨ k.name = .normal → time.length = n) (h0 : NeedsKeys k m → ∀ j ∈ key, 0 ≤ j)
    (hn : n < 2 ^ 31) : ∃ items, runKern fa k param m key src time uniq n = some items ∧ items.length = n := by
  unfold runKern
  cases hnm : k.name with
  | cumSum =>
    dsimp only
    cases itOf k.T with
    | some t => obtain ⟨o, e, e', _⟩ := cumSum_spec t m key src uniq n h hs; exact ⟨o, e, e'⟩
    | none =>
      obtain ⟨o, e, e', _⟩ := cumulate_spec (0 : Int) (fa.add k.U) (nanOf fa k.U) m key src 0 uniq n h hs
      exact ⟨o, e, e'⟩
  | cumProd =>
    dsimp only
    cases itOf k.T with
    | some t => obtain ⟨o, e, e', _⟩ := cumProd_spec t m key src uniq n h hs; exact ⟨o, e, e'⟩
    | none =>
      obtain ⟨o, e, e', _⟩ := cumulate_spec (fa.one k.U) (fa.mul k.U) (nanOf fa k.U) m key src 0 uniq n h hs
      exact ⟨o, e, e'⟩
  | nanMin => exact (extremes_run _ m key src uniq n h hs fun a b => h0 (.inr (.inr ⟨by simp [hnm], a, b⟩))).1
  | nanMax => exact (extremes_run _ m key src uniq n h hs fun a b => h0 (.inr (.inr ⟨by simp [hnm], a, b⟩))).1
  | min => exact (extremes_run _ m key src uniq n h hs fun a b => h0 (.inr (.inr ⟨by simp [hnm], a, b⟩))).2
  | max => exact (extremes_run _ m key src uniq n h hs fun a b => h0 (.inr (.inr ⟨by simp [hnm], a, b⟩))).2
  | findNth => obtain ⟨o, e, e', _⟩ := findNth_spec m.inc key uniq n (nth_ok h) hn; exact ⟨o, e, e'⟩
  | decay =>
    dsimp only
    rw [if_pos (decay_inside m key src time uniq n h hs (ht (.inl hnm)))]
    exact ⟨_, rfl, by simp⟩
  | normal =>
    dsimp only
    rw [if_pos (normal_inside m key src time uniq n h hs (ht (.inr hnm)) (h0 (.inl hnm)))]
    exact ⟨_, rfl, by simp⟩
  | weighted =>
    dsimp only
    rw [if_pos (weighted_inside m key src time uniq n h hs (h0 (.inr (.inl hnm))))]
    exact ⟨_, rfl, by simp⟩

/-- The functions which use the keys of rows without a group: those with a start, and the extremes without masks. -/
def AllKeys (func : Int) (inc rst : Obj) : Prop :=
  func = 304 ∨ func = 305 ∨ (306 ≤ func ∧ inc = .pyNone ∧ rst = .pyNone)

/-- The column of a sound call. -/
theorem col_total (fa : Arith) (h : Sound r a uniq func number time inc rst) (hf : 0 ≤ func ∧ func < 2 ^ 32)
    (h0 : AllKeys func inc rst → ∀ k ∈ a.vals, 0 ≤ k) (hld : func = 301 ∨ func = 304 ∨ func = 305 → timeType time ≠ 13)
    (hn : a.vals.length < 2 ^ 31) (o : Obj) (ho : o ∈ entries r.cols) (k : Kern)
    (hk : kernOf func (tyOf o) (timeType time) = some k) :
    ∃ items, runKern fa k number (jobOf a r.cols uniq func number time inc rst).masks a.vals ((elems o).take a.vals.length)
        ((bytesOf a.vals.length time).getD []) uniq a.vals.length = some items ∧ items.length = a.vals.length ∧
      callCol fa (jobOf a r.cols uniq func number time inc rst) (colFor o) = some (Ret.array k.out items) := by
  obtain ⟨hkey, hok, hinc, hrst⟩ := sound_job h
  have hnm := kern_named func (tyOf o) (timeType time) k hk
  have hm := hnm.1
  simp only [named, List.mem_cons, Prod.mk.injEq, List.not_mem_nil, or_false] at hm
  obtain ⟨items, e1, e2⟩ := kern_runs fa k number (jobOf a r.cols uniq func number time inc rst).masks a.vals
    ((elems o).take a.vals.length) ((bytesOf a.vals.length time).getD []) uniq a.vals.length hok (take_long h o ho) (by
      intro hx
      have h3 : func = 301 ∨ func = 304 := by
        rcases hx with hx | hx <;> rw [hx] at hm <;> simp at hm <;> omega
      have h5 := (hnm.2.2.2.2.2 (by omega)).2
      obtain ⟨v, _, _, h5⟩ := h5
      have ht := h.good.time
      have hfl := h.timeFlat
      cases time with
      | pyNone => simp [timeType] at h5
      | other => exact absurd ht id
      | arr b =>
        have hl : b.vals.length = a.vals.length := ht.2.2
        rw [bytesOf, Option.getD_some, ← hl, hfl b rfl]) (by
      intro hx
      apply h0
      rcases hx with hx | hx | ⟨hx, hi, hr⟩
      · rw [hx] at hm; simp at hm; exact .inl hm
      · rw [hx] at hm; simp at hm; exact .inr (.inl hm)
      · refine .inr (.inr ⟨?_, ?_, ?_⟩)
        · rcases hx with hx | hx | hx | hx <;> rw [hx] at hm <;> simp at hm <;> omega
        · rcases bytes_flat a.vals.length inc h.good.inc h.incFlat with ⟨e, _⟩ | ⟨b, _, e, _⟩
          · exact e
          · simp only [jobOf, e, Option.map_some] at hi; cases hi
        · rcases bytes_flat a.vals.length rst h.good.rst h.rstFlat with ⟨e, _⟩ | ⟨b, _, e, _⟩
          · exact e
          · simp only [jobOf, e, Option.map_some] at hr; cases hr) hn
  refine ⟨items, e1, e2, ?_⟩
  rw [col_run fa h o k (by rw [funcOf_small func hf.1 hf.2]; exact hk)
    (kern_fits_partial func (tyOf o) (timeType time) k hk hld), e1]
  rfl

/-- C134, any function: a sound call returns an entry for each column, the same whatever the threads do: an array of the type of
the function with an item for each row of the key, or `None` when there is no function for the number and the types.  Missing from
the full statement: what `Sound` asks for is not tested by the call (`call_short_column`, `call_key_above`, `call_strided_key`),
and averages with a time of type `long double` (`call_long_double`). -/
theorem call_shape_partial (fa : Arith) (h : Sound r a uniq func number time inc rst) (hf : 0 ≤ func ∧ func < 2 ^ 32)
    (h0 : AllKeys func inc rst → ∀ k ∈ a.vals, 0 ≤ k) (hld : func = 301 ∨ func = 304 ∨ func = 305 → timeType time ≠ 13)
    (hn : a.vals.length < 2 ^ 31) {workers : Nat} {nt : Bool} {calls : List Nat}
    (hs : ColSched workers (entries r.cols).length nt calls) :
    ∃ outs : List Ret, emaAll fa calls r = .done outs ∧ outs.length = (entries r.cols).length ∧
      ∀ (i : Nat) (o : Obj), (entries r.cols)[i]? = some o →
        (kernOf func (tyOf o) (timeType time) = none ∧ outs[i]? = some Ret.pyNone) ∨
        ∃ (k : Kern) (items : List (Option Int)), kernOf func (tyOf o) (timeType time) = some k ∧ outs[i]? = some (Ret.array k.out items) ∧
          items.length = a.vals.length := by
  obtain ⟨outs, h1, h2, h3⟩ := call_columns fa h hs (fun o v =>
    (kernOf func (tyOf o) (timeType time) = none ∧ v = Ret.pyNone) ∨
      ∃ (k : Kern) (items : List (Option Int)), kernOf func (tyOf o) (timeType time) = some k ∧ v = Ret.array k.out items ∧ items.length = a.vals.length) (by
    intro o ho
    cases hk : kernOf func (tyOf o) (timeType time) with
    | none => exact ⟨.pyNone, col_none fa _ o
        ((congrArg (kernOf · (tyOf o) (timeType time)) (funcOf_small func hf.1 hf.2)).trans hk), .inl ⟨rfl, rfl⟩⟩
    | some k =>
      obtain ⟨items, _, e2, e3⟩ := col_total fa h hf h0 hld hn o ho k hk
      exact ⟨_, e3, .inr ⟨k, items, rfl, rfl, e2⟩⟩)
  refine ⟨outs, h1, h2, fun i o ho => ?_⟩
  obtain ⟨v, hv, hp⟩ := h3 i o ho
  rcases hp with ⟨e, rfl⟩ | ⟨k, items, e, rfl, e'⟩
  · exact .inl ⟨e, hv⟩
  · exact .inr ⟨k, items, e, hv, e'⟩

/-- The result of one column, once what its function gives is known. -/
theorem call_values (fa : Arith) (h : Sound r a uniq func number time inc rst) (hf : 0 ≤ func ∧ func < 2 ^ 32)
    (h0 : AllKeys func inc rst → ∀ k ∈ a.vals, 0 ≤ k) (hld : func = 301 ∨ func = 304 ∨ func = 305 → timeType time ≠ 13)
    (hn : a.vals.length < 2 ^ 31) {workers : Nat} {nt : Bool} {calls : List Nat}
    (hs : ColSched workers (entries r.cols).length nt calls) (Q : Obj → Kern → List (Option Int) → Prop)
    (hq : ∀ o ∈ entries r.cols, ∀ k items, kernOf func (tyOf o) (timeType time) = some k →
      runKern fa k number (jobOf a r.cols uniq func number time inc rst).masks a.vals ((elems o).take a.vals.length)
        ((bytesOf a.vals.length time).getD []) uniq a.vals.length = some items → Q o k items) :
    ∃ outs : List Ret, emaAll fa calls r = .done outs ∧ outs.length = (entries r.cols).length ∧
      ∀ (i : Nat) (o : Obj), (entries r.cols)[i]? = some o → ∀ k, kernOf func (tyOf o) (timeType time) = some k →
        ∃ items : List (Option Int), outs[i]? = some (Ret.array k.out items) ∧ items.length = a.vals.length ∧ Q o k items := by
  obtain ⟨outs, h1, h2, h3⟩ := call_columns fa h hs (fun o v => ∀ k, kernOf func (tyOf o) (timeType time) = some k →
      ∃ items : List (Option Int), v = Ret.array k.out items ∧ items.length = a.vals.length ∧ Q o k items) (by
    intro o ho
    cases hk : kernOf func (tyOf o) (timeType time) with
    | none => exact ⟨.pyNone, col_none fa _ o
        ((congrArg (kernOf · (tyOf o) (timeType time)) (funcOf_small func hf.1 hf.2)).trans hk), fun k hk' => by cases hk'⟩
    | some k =>
      obtain ⟨items, e1, e2, e3⟩ := col_total fa h hf h0 hld hn o ho k hk
      exact ⟨_, e3, fun k' hk' => by cases hk'; exact ⟨items, rfl, e2, hq o ho k items hk e1⟩⟩)
  refine ⟨outs, h1, h2, fun i o ho k hk => ?_⟩
  obtain ⟨v, hv, hp⟩ := h3 i o ho
  obtain ⟨items, rfl, e⟩ := hp k hk
  exact ⟨items, hv, e⟩

end
end Riptide.Ema.Entry
