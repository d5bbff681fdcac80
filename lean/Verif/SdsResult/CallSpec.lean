import Verif.SdsResult.Call
/-! # What is expected of what reading hands over

Said without the functions of the model which follow the code. -/
namespace Riptide.SdsResult

/-- What can be found in a dictionary. -/
def Dict.get (d : Dict) (k : String) : Option Val := (d.find? fun p => p.1 = k).map Prod.snd

/-- The block has as many dimensions as fit. -/
def Blk.Sound (b : Blk) : Prop := 0 ≤ b.ndim ∧ b.ndim ≤ 5

/-- An exception is set while the file is wrapped: a block has fewer than no dimensions or the name of a section is no text. -/
def Final.Fails (dec : List Nat → Option (List Nat)) (f : Final) : Prop :=
  (f.info = true ∧ ∃ b ∈ f.blocks, b.ndim < 0) ∨ ((∃ n, f.file = some n) ∧ ∃ s, f.sections = some s ∧ ∃ n ∈ s.names, dec n = none)

/-- Memory is read which is not the block's, or a null pointer is put into a dictionary. -/
def Final.Breaks (dec : List Nat → Option (List Nat)) (f : Final) : Prop :=
  (∃ n, f.file = some n ∧ dec n = none) ∨ (f.info = true ∧ ∃ b ∈ f.blocks, 5 < b.ndim)

/-- How many entries the dictionary of a file has. -/
def Final.entries (f : Final) : Nat :=
  match f.file, f.sections with
  | none, _ => 27
  | some _, none => 28
  | some _, some s => if s.names = [] then 29 else 31

/-- What is to be shown of a block: a number of bytes decides which of the types with the same name in C it is. -/
def Blk.shown (b : Blk) (i : ArrInfo) : Prop :=
  i.shape = b.dims.take b.ndim.toNat ∧ i.flags = b.flags ∧ i.item = b.item ∧
  (b.dtype ≠ 7 → b.dtype ≠ 8 → i.dtype = b.dtype) ∧
  (b.dtype = 7 → i.dtype = if b.item = 4 then 5 else 9) ∧ (b.dtype = 8 → i.dtype = if b.item = 4 then 6 else 10)

/-- What is to be handed over of a file. -/
structure Final.Shown (dec : List Nat → Option (List Nat)) (f : Final) (i : FileInfo) : Prop where
  metadata : i.metadata = f.metadata.getD [123, 125]
  names : i.names = f.names
  arrays : f.info = false → i.cols = .arrays f.arrays
  infos : f.info = true → ∃ l : List ArrInfo, i.cols = .infos (l.map some) ∧ l.length = f.blocks.length ∧
    ∀ (k : Nat) b x, f.blocks[k]? = some b → l[k]? = some x → b.shown x
  header : ∀ k n, (k, n) ∈ headerPairs f.header → i.dict.get k = some (.int n)
  file : ∀ n t, f.file = some n → dec n = some t → i.dict.get "Filename" = some (.text t)
  sections : ∀ n s, f.file = some n → f.sections = some s → i.dict.get "SectionOffset" = some (.int s.offset) ∧
    (s.names ≠ [] → (∃ ts : List (List Nat), i.dict.get "Sections" = some (.texts (ts.map some)) ∧ s.names.map dec = ts.map some) ∧
      i.dict.get "SectionOffsets" = some (.ints s.offsets))

end Riptide.SdsResult
