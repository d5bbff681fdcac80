import Verif.Sds.Sections
/-! # Model of the concatenation of SDS files, `src/SDSFile.cpp:6457-6774`

Only files which were opened as valid are given here; failures of reads and writes, which are only logged, are failures here. -/
namespace Riptide.Sds

/-- The loop which copies a file in parts of some size, `src/SDSFile.cpp:6530-6559`. -/
def copyLoop (buffer : Nat) : Nat → Nat → List Nat → List (Nat × List Nat)
  | 0, _, _ => []
  | k + 1, pos, l => if l = [] then [] else (pos, l.take buffer) :: copyLoop buffer k (pos + (l.take buffer).length) (l.drop buffer)

/-- An offset, if there is one, moved, `src/SDSFile.cpp:6497-6506`. -/
def moved (by_ o : Nat) : Nat := if o ≠ 0 then o + by_ else 0

/-- A header with its offsets moved, `src/SDSFile.cpp:6496-6510,6609-6622`. -/
def moveHeader (by_ : Nat) (h : Header) : Header :=
  { h with
    nameOffset := moved by_ h.nameOffset
    metaOffset := moved by_ h.metaOffset
    blockOffset := moved by_ h.blockOffset
    first := moved by_ h.first
    sectOffset := 0
    fileOffset := h.fileOffset + by_ }

/-- The blocks of arrays with their offsets moved: eight bytes from the 96th on in each, `src/SDSFile.cpp:6573-6579`. -/
def moveBlocks (by_ : Nat) : Nat → List Nat → List Nat
  | 0, l => l
  | n + 1, l => l.take 96 ++ le 8 (unle ((l.drop 96).take 8) + by_) ++ (l.drop 104).take 24 ++ moveBlocks by_ n (l.drop 128)

/-- A header which is not checked, `src/SDSFile.cpp:6589-6603`. -/
def rawHeader (f : List Nat) (pos : Nat) : Option Header :=
  match readAt f pos 512 with
  | some l => some (Header.ofVals (dec headerWidths l))
  | none => none

/-- The blocks of arrays which are written again, `src/SDSFile.cpp:6562-6582,6639-6661`. -/
def blockMoves (by_ : Nat) (f : List Nat) (h : Header) : Option (Nat × List Nat) :=
  match readAt f h.blockOffset h.blockSize with
  | some bs => some (by_ + h.blockOffset, moveBlocks by_ h.written bs)
  | none => none

/-- The sections of a file behind its first, `src/SDSFile.cpp:6584-6665`. -/
def sectionMoves (by_ : Nat) (f : List Nat) : List Nat → Option (List (Nat × List Nat))
  | [] => some []
  | o :: os => match rawHeader f o with
    | none => none
    | some h => match blockMoves by_ f h with
      | none => none
      | some b => match sectionMoves by_ f os with
        | none => none
        | some ws => some ((by_ + o, (moveHeader by_ h).bytes) :: b :: ws)

/-- `AppendToFile`, `src/SDSFile.cpp:6472-6671`: the writes, and where the sections are then. -/
def appendWrites (buffer by_ : Nat) (f : List Nat) : Option (List (Nat × List Nat) × List Nat) :=
  match readHeader f 0 with
  | none => none
  | some h => match loadDir f h with
    | none => none
    | some l => match blockMoves by_ f h with
      | none => none
      | some b =>
        let os := if h.sectOffset = 0 then [] else (l.drop 1).map Prod.snd
        match sectionMoves by_ f os with
        | none => none
        | some ws =>
          some ((by_, (moveHeader by_ h).bytes) :: copyLoop buffer (f.length - 512) (by_ + 512) (f.drop 512) ++ b :: ws,
            by_ :: os.map (by_ + ·))

/-- The second pass of `SDSConcatFiles`, `src/SDSFile.cpp:6735-6749`: the writes, the places of all sections and the end. -/
def concatWrites (buffer : Nat) : Nat → List (List Nat) → Option (List (Nat × List Nat) × List Nat × Nat)
  | pos, [] => some ([], [], pos)
  | pos, f :: fs => match appendWrites buffer pos f with
    | none => none
    | some (w, o) => match concatWrites buffer (padTo (pos + f.length)) fs with
      | none => none
      | some (ws, os, last) => some (w ++ ws, o ++ os, last)

/-- `SDSConcatFiles`, `src/SDSFile.cpp:6678-6774`: the sections all have the name `0`; the header of the first file is written again. -/
def concatFiles (buffer : Nat) (junk : Nat → Nat) (fs : List (List Nat)) : Option (List Nat) :=
  match fs with
  | [] => none
  | f :: _ => match readHeader f 0 with
    | none => none
    | some h => match concatWrites buffer 0 fs with
      | none => none
      | some (ws, os, last) =>
        let size := os.length * 10
        let h' := (moveHeader 0 h).marked size last os.length (padTo size) h.stamp 1
        some (writes [] (ws ++ [(last, dirBlock junk (os.map fun o => ([48], o)) (padTo size)), (0, h'.bytes)]))

end Riptide.Sds
