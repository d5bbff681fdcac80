import Verif.Arrays.NumsSpec
import Verif.Mask.CallLemmas
/-! What the loads of the calls read from an array of numbers. -/
namespace Riptide.Nums
open Riptide.Binary Riptide.Mask.Call.Spec

theorem bytesOf_length : ∀ (w n : Nat), (bytesOf w n).length = w
  | 0, _ => rfl
  | w + 1, n => by rw [bytesOf, List.length_cons, bytesOf_length w]

theorem load_has {m : Mem} : ∀ (w : Nat) (o : Int) (n : Nat), Has m o (bytesOf w n) → load m o w = some (n % 256 ^ w)
  | 0, _, n, _ => by simp [load, Nat.mod_one]
  | w + 1, o, n, h => by
    have h0 := h 0 (by rw [bytesOf, List.length_cons]; omega)
    rw [show o + ((0 : Nat) : Int) = o from by omega] at h0
    have hr : Has m (o + 1) (bytesOf w (n / 256)) := by
      intro j hj
      have := h (j + 1) (by rw [bytesOf, List.length_cons]; omega)
      rw [show o + 1 + (j : Int) = o + ((j + 1 : Nat) : Int) from by push_cast; omega, this]
      rfl
    rw [load, h0]
    simp only [bytesOf, List.getElem?_cons_zero, Option.bind_some, load_has w _ _ hr, Option.map_some, BitVec.toNat_ofNat]
    have e : n % 256 ^ (w + 1) = n % 256 + 256 * (n / 256 % 256 ^ w) := by
      rw [Nat.pow_succ, Nat.mul_comm, Nat.mod_mul]
    rw [e]

theorem load_bits {m : Mem} {w : Nat} {o : Int} {b : Nat} (h : HasBits w false m o b) : load m o w = some b := by
  rw [load_has w o b (by simpa using h.2), Nat.mod_eq_of_lt h.1]

theorem wrap_emod (t : IT) (x : Int) : t.wrap (x % 2 ^ t.bits) = t.wrap x := by
  unfold IT.wrap
  rw [Int.emod_sub_emod]

theorem load_int {t : IT} {m : Mem} {o v : Int} (ht : 0 < t.bits) (h : HasInt t false m o v) : loadInt t m o = some v := by
  unfold loadInt
  rw [load_bits h.2]
  have h0 := Int.emod_nonneg v (Int.ne_of_gt (IT.pow_pos t.bits))
  rw [Option.map_some, Int.toNat_of_nonneg h0, wrap_emod, IT.wrap_of_inRange t ht h.1]

theorem allAt_get {β : Type} {P : Int → β → Prop} : ∀ {os : List Int} {xs : List β}, AllAt P os xs →
    xs.length = os.length ∧ ∀ (i : Nat) o x, os[i]? = some o → xs[i]? = some x → P o x
  | [], [], _ => ⟨rfl, fun i o t h => by simp at h⟩
  | o :: os, t :: ts, h => by
    obtain ⟨h1, h2⟩ := allAt_get h.2
    refine ⟨by simp [h1], ?_⟩
    intro i o' t' ho ht
    cases i with
    | zero => simp at ho ht; subst ho; subst ht; exact h.1
    | succ i => exact h2 i o' t' (by simpa using ho) (by simpa using ht)
  | [], _ :: _, h => h.elim
  | _ :: _, [], h => h.elim

/-- The items of a plain array are where the calls read them. -/
theorem plain_at {β : Type} {P : Int → β → Prop} {a : Arr} {xs : List β} (hp : Plain a) (h : AllAt P (inC a.lay.dims a.lay.strides) xs) :
    xs.length = a.lay.len ∧ ∀ (i : Nat) x, xs[i]? = some x → P (((i * a.lay.item : Nat) : Int)) x := by
  obtain ⟨h1, h2⟩ := allAt_get h
  have hn : xs.length = a.lay.len := by rw [h1, Riptide.Mask.Call.inC_length _ _ hp.1]; rfl
  refine ⟨hn, ?_⟩
  intro i x hx
  have hi : i < xs.length := by
    rcases Nat.lt_or_ge i xs.length with h3 | h3
    · exact h3
    · rw [List.getElem?_eq_none h3] at hx; cases hx
  have he := Riptide.Mask.Call.contiguous_even_c hp.1 hp.2.1 i (by omega)
  have := h2 i _ x he hx
  rwa [Int.natCast_mul]

theorem plain_ints {t : IT} (ht : 0 < t.bits) {a : Arr} {m : Mem} {vs : List Int} (hp : Plain a) (h : Ints t a m vs) :
    vs.length = a.lay.len ∧ ∀ (i : Nat) x, vs[i]? = some x → loadInt t m (((i * a.lay.item : Nat) : Int)) = some x := by
  unfold Ints at h
  rw [hp.2.2] at h
  obtain ⟨h1, h2⟩ := plain_at hp h
  exact ⟨h1, fun i x hx => load_int ht (h2 i x hx)⟩

theorem plain_bits {w : Nat} {a : Arr} {m : Mem} {vs : List Nat} (hp : Plain a) (h : Bits w a m vs) :
    vs.length = a.lay.len ∧ ∀ (i : Nat) x, vs[i]? = some x → load m (((i * a.lay.item : Nat) : Int)) w = some x := by
  unfold Bits at h
  rw [hp.2.2] at h
  obtain ⟨h1, h2⟩ := plain_at hp h
  exact ⟨h1, fun i x hx => load_bits (h2 i x hx)⟩

theorem ints_range {t : IT} {a : Arr} {m : Mem} {vs : List Int} (h : Ints t a m vs) :
    ∀ v ∈ vs, t.InRange v := by
  intro v hv
  obtain ⟨h1, h2⟩ := allAt_get h
  obtain ⟨i, hi, rfl⟩ := List.getElem_of_mem hv
  exact (h2 i _ _ (List.getElem?_eq_getElem (by omega)) (List.getElem?_eq_getElem hi)).1

end Riptide.Nums
