/-! # What the choice of columns should do

Names are lists of bytes; `47` is `/`, `33` is `!`. -/
namespace Riptide.Sds.Include.Spec

/-- `t` is the column in a name `folder/t`, or the whole name when nothing is in front of a slash. -/
def IsColumn (s t : List Nat) : Prop :=
  47 ∉ t ∧ (s = t ∨ ∃ f, f ≠ [] ∧ s = f ++ 47 :: t) ∨ ∃ u, 47 ∉ u ∧ s = 47 :: u ∧ t = s

/-- `b` is what stands in front of the first `!` of a name. -/
def IsBase (t b : List Nat) : Prop := 33 ∉ b ∧ ∃ c, t = b ++ 33 :: c

/-- `f` is the folder of a name, with its slash. -/
def IsFolder (s f : List Nat) : Prop := ∃ d c, 47 ∉ c ∧ f = d ++ [47] ∧ s = f ++ c

/-- A list of columns takes a name: it is empty, or has its column or the base of its column. -/
def Column (l : List (List Nat)) (s : List Nat) : Prop := l = [] ∨ ∃ t, IsColumn s t ∧ (t ∈ l ∨ ∃ b, IsBase t b ∧ b ∈ l)

/-- A list of folders takes a name: it is empty, or has the name itself or its folder. -/
def Folder (l : List (List Nat)) (s : List Nat) : Prop := l = [] ∨ s ∈ l ∨ ∃ f, IsFolder s f ∧ f ∈ l

/-- What is wanted of a file without folders: the columns named, all of them without a list. -/
def Wanted (inc : List (List Nat)) (s : List Nat) : Prop := inc = [] ∨ s ∈ inc

/-- What is wanted of a file with folders: the columns named, of the folders named. -/
def WantedIn (inc fol : List (List Nat)) (folder col : List Nat) : Prop :=
  (inc = [] ∨ col ∈ inc) ∧ (fol = [] ∨ folder ++ [47] ∈ fol)

/-- The text of an item of a Python list as bytes: bytes and ASCII strings without zero bytes have one. -/
def plain (b : List Nat) : Prop := ∀ x ∈ b, x ≠ 0 ∧ x < 128

/-- What was added to a list and not cleared away afterwards. -/
inductive Since : List (Option (List Nat)) → List Nat → Prop
  | here (h s) : none ∉ h → Since (some s :: h) s
  | later (o h s) : Since h s → Since (o :: h) s

end Riptide.Sds.Include.Spec
