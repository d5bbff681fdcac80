import Verif.Work.Model

/-! What is expected of the pool when it starts. -/

namespace Riptide.Work

/-- `cpus` are the processors for which `allowed` holds, each listed once. -/
structure Processors (allowed : Nat → Bool) (cpus : List Nat) : Prop where
  once : cpus.Nodup
  those : ∀ c, c ∈ cpus ↔ allowed c = true

/-- `cores` numbers `count` workers `0 … count - 1`, each number given once. -/
def Numbered (count : Nat) (cores : List (Option Nat)) : Prop :=
  cores.Perm ((List.range count).map some)

end Riptide.Work
