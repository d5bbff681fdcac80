import Verif.Shm.ReadOnlyProps
/-! # Where arrays in shared memory stay writeable -/
namespace Riptide.Shm.ReadOnly
open Spec

/-- **C168** Not every array on the way down becomes read-only: a view of a view of an array. The one in between can still be
written through, though its data is the same. -/
theorem clearWriteable_between_wrong : ¬ ∀ (mem out : List Arr) (p q : Nat), Older mem → clearWriteable mem p = some out →
    Under mem p q → ReadOnly out q := by
  intro h
  have ho : Older [⟨true, .object⟩, ⟨true, .array 0⟩, ⟨true, .array 1⟩] := by
    intro p a q h hb
    match p with
    | 0 => simp at h; subst h; simp at hb
    | 1 => simp at h; subst h; simp at hb; omega
    | 2 => simp at h; subst h; simp at hb; omega
    | n + 3 => simp at h
  obtain ⟨a, ha, hw⟩ := h [⟨true, .object⟩, ⟨true, .array 0⟩, ⟨true, .array 1⟩]
    [⟨false, .object⟩, ⟨true, .array 0⟩, ⟨false, .array 1⟩] 2 1 ho (by decide +kernel)
    (.base 2 1 1 ⟨true, .array 1⟩ rfl rfl (.self 1))
  simp at ha
  subst ha
  simp at hw

/-- **C168** Other views of the same array stay writeable as well. -/
theorem clearWriteable_sibling_wrong : ¬ ∀ (mem out : List Arr) (p q r : Nat), Older mem → clearWriteable mem p = some out →
    Under mem p r → Under mem q r → ReadOnly out q := by
  intro h
  have ho : Older [⟨true, .object⟩, ⟨true, .array 0⟩, ⟨true, .array 0⟩] := by
    intro p a q h hb
    match p with
    | 0 => simp at h; subst h; simp at hb
    | 1 => simp at h; subst h; simp at hb; omega
    | 2 => simp at h; subst h; simp at hb; omega
    | n + 3 => simp at h
  obtain ⟨a, ha, hw⟩ := h [⟨true, .object⟩, ⟨true, .array 0⟩, ⟨true, .array 0⟩]
    [⟨false, .object⟩, ⟨true, .array 0⟩, ⟨false, .array 0⟩] 2 1 0 ho (by decide +kernel)
    (.base 2 0 0 ⟨true, .array 0⟩ rfl rfl (.self 0)) (.base 1 0 0 ⟨true, .array 0⟩ rfl rfl (.self 0))
  simp at ha
  subst ha
  simp at hw

end Riptide.Shm.ReadOnly
