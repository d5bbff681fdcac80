import Verif.Sds.Many
import Verif.Sds.IncludeSpec
/-! # What reading many files should answer -/
namespace Riptide.Sds.Many.Spec

/-- All of a file can be read, its metadata too, and `l` is what is in it: one content, or one for every section when there are several. -/
def Whole (d : Disk α) (l : List α) : Prop :=
  ∃ s x ss, d = .file s x none ss ∧ ((ss.length ≤ 1 ∧ l = [x]) ∨ (1 < ss.length ∧ ss = l.map fun y => .read y none))

/-- What is in a section which can be read. -/
def content : Part α → Option α
  | .read y _ => some y
  | .unread _ => none

/-- `l` is what can be read of a file: nothing of a missing or damaged one, and of sections those which can be read. -/
inductive Holds : Disk α → List α → Prop
  | missing (why) : Holds (.missing why) []
  | unread (s says) : Holds (.unread s says) []
  | file (s x t ss) : ss.length ≤ 1 → Holds (.file s x t ss) [x]
  | parts (s x t ss) : 1 < ss.length → Holds (.file s x t ss) (ss.filterMap content)

/-- Something of the file cannot be read, apart from metadata. -/
inductive Fails : Disk α → Prop
  | missing (why) : Fails (.missing why)
  | unread (s says) : Fails (.unread s says)
  | parts (s x t ss m) : 1 < ss.length → .unread m ∈ ss → Fails (.file s x t ss)

/-- No text about the file has a percent sign, nor has its name. -/
def Harmless (f : List Nat) : Disk α → Prop
  | .missing why => 37 ∉ f ∧ 37 ∉ why
  | .unread _ says => 37 ∉ f ∧ 37 ∉ says
  | .file _ _ t ss => 37 ∉ f ∧ (∀ m ∈ t, 37 ∉ m) ∧ ∀ p ∈ ss, match p with
    | .unread m => 37 ∉ m
    | .read _ t => ∀ m ∈ t, 37 ∉ m

/-- The list names the files `ns`, each as bytes or as a string, in ASCII. -/
def Named (files : List Include.PyItem) (ns : List (List Nat)) : Prop :=
  ∃ k : List Nat → Include.PyItem, (∀ b, k b = .bytes b ∨ k b = .str b) ∧ (∀ b ∈ ns, Include.Spec.plain b) ∧ files = ns.map k

end Riptide.Sds.Many.Spec
