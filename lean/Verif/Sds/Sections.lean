import Verif.Sds.File
/-! # Model of the names and the sections of an SDS file, `src/SDSFile.cpp` and `src/SDSFilePython.cpp` -/
namespace Riptide.Sds

/-! ### Lists of names -/

/-- The bytes up to the first zero, and what follows that: `while (*p++)`.  `none` is a read behind the bytes. -/
def cstr : List Nat → Option (List Nat × List Nat)
  | [] => none
  | b :: l => if b = 0 then some ([], l) else match cstr l with
    | some (s, r) => some (b :: s, r)
    | none => none

/-- `BuildListInfo`, `src/SDSFilePython.cpp:479-521`: bytes up to a zero, the zero, and one byte.  All items are tuples of bytes and an
integer here. -/
def buildNames (l : List (List Nat × Nat)) : List Nat := l.flatMap fun e => e.1.takeWhile (· != 0) ++ [0, e.2 % 256]

/-- The memory for the names, `src/SDSFilePython.cpp:1363`. -/
def namesRoom (count : Nat) : Nat := 300 * count + 8

/-- `MakeListNames`, `src/SDSFilePython.cpp:531-567` and `src/SDSFile.cpp:4150-4175`: the loop ends early behind the last byte.  `none` is
a read behind the bytes. -/
def makeNames : Nat → List Nat → Option (List (List Nat × Nat))
  | 0, _ => some []
  | n + 1, l => match cstr l with
    | some (s, v :: r) =>
      if r = [] then some [(s, v)]
      else match makeNames n r with
        | some t => some ((s, v) :: t)
        | none => none
    | _ => none

/-! ### The directory of sections -/

/-- `BuildSectionNamesAndOffsets`, `src/SDSFile.cpp:1995-2037`: names with their zero and eight bytes of an offset. -/
def dirBytes (l : List (List Nat × Nat)) : List Nat := l.flatMap fun e => e.1 ++ [0] ++ le 8 e.2

/-- The memory for a directory to which one more is added, `src/SDSFile.cpp:2001`. -/
def dirRoom (count : Nat) : Nat := padTo (72 * (count + 1) + 1024)

/-- `MakeListSections`, `src/SDSFile.cpp:2085-2117`. -/
def makeDir : Nat → List Nat → Option (List (List Nat × Nat))
  | 0, _ => some []
  | n + 1, l => match cstr l with
    | some (s, r) =>
      if r.length < 8 then none
      else if r.drop 8 = [] then some [(s, unle (r.take 8))]
      else match makeDir n (r.drop 8) with
        | some t => some ((s, unle (r.take 8)) :: t)
        | none => none
    | none => none

/-- `ReadListSections` and `MakeFirstSectionName`, `src/SDSFile.cpp:2122-2180,2391-2401`: a file without sections has one with the name
`0` from its start on. -/
def loadDir (f : List Nat) (h : Header) : Option (List (List Nat × Nat)) :=
  if h.sectSize = 0 then some [([48], 0)]
  else match readAt f h.sectOffset h.sectSize with
    | some l => makeDir h.sectCount l
    | none => none

/-! ### Adding a section -/

/-- A section to be written, and what the threads and the clock do. -/
structure Sec where
  name : List Nat
  x : Input
  order : List Nat
  worder : List Nat
  stamp : Nat
  deriving DecidableEq, Repr

/-- The bytes of a directory with what else is in its memory, up to the reserved size, `src/SDSFile.cpp:2362-2363,2427-2428`. -/
def dirBlock (junk : Nat → Nat) (l : List (List Nat × Nat)) (reserved : Nat) : List Nat :=
  dirBytes l ++ (List.range (reserved - (dirBytes l).length)).map junk

/-- The first header with one more section, `src/SDSFile.cpp:2396-2424`; `last` is the end of the new section. -/
def grown (h : Header) (l : List (List Nat × Nat)) (last : Nat) : Header :=
  let h1 := { h with sectCount := (if h.sectSize = 0 then 1 else h.sectCount) + 1, sectSize := (dirBytes l).length }
  if h.sectReserved < (dirBytes l).length then { h1 with sectOffset := last, sectReserved := padTo (dirBytes l).length } else h1

/-- The writes of the first section, `src/SDSFile.cpp:2346-2372,2446-2458`: the directory is behind the arrays. -/
def firstWrites (c : Codec) (junk : Nat → Nat) (s : Sec) (m : List Nat) : List (Nat × List Nat) :=
  let h := fullHeader c 0 s.x m.length s.order
  let size := (dirBytes [(s.name, 0)]).length
  let h' := h.marked size (h.first + h.totalC) 1 (padTo size) s.stamp 0
  startWrites 0 s.x m ++ arrayWrites c 0 s.x m.length s.order s.worder ++
    [(h.first + h.totalC, dirBlock junk [(s.name, 0)] (padTo size))] ++ endWrites c 0 s.x m.length s.order h'

/-- The writes after the arrays of a further section, `src/SDSFile.cpp:2426-2441`: the directory and the first header. -/
def midWrites (junk : Nat → Nat) (h' : Header) (l : List (List Nat × Nat)) : List (Nat × List Nat) :=
  [(h'.sectOffset, dirBlock junk l h'.sectReserved), (0, h'.bytes)]

/-- `SDSWriteFileInternal` with a section, `src/SDSFile.cpp:2206-2325,2330-2465`: the file after it, or a failure.  A file of no bytes is
written anew; otherwise the section starts behind the end of the file.  Should the first header or the directory not be readable after
the arrays were written, uninitialised memory is written; here this is a failure. -/
def addSection (c : Codec) (junk : Nat → Nat) (f : List Nat) (s : Sec) : Option (List Nat) :=
  match packMeta c s.x.zstd s.x.metaData with
  | none => none
  | some m =>
    if f = [] then some (writes [] (firstWrites c junk s m))
    else match readHeader f 0 with
      | none => none
      | some _ =>
        let fo := padTo f.length
        let f1 := writes f (startWrites fo s.x m ++ arrayWrites c fo s.x m.length s.order s.worder)
        match readHeader f1 0 with
        | none => none
        | some h => match loadDir f1 h with
          | none => none
          | some l =>
            let h0 := fullHeader c fo s.x m.length s.order
            let l' := l ++ [(s.name, fo)]
            some (writes f1 (midWrites junk (grown h l' (h0.first + h0.totalC)) l' ++
              endWrites c fo s.x m.length s.order (h0.marked 0 0 0 0 s.stamp 0)))

/-! ### Reading all sections -/

/-- `ScanForSections`, `src/SDSFile.cpp:6968-7046`, for one file: all sections in their order, or the file if it has only one. -/
def readAll (c : Codec) (f : List Nat) : Option (List (Option Out)) :=
  match readHeader f 0 with
  | none => none
  | some h =>
    if 1 < h.sectCount then
      match loadDir f h with
      | some l => some (l.map fun e => readFile c f e.2)
      | none => none
    else some [readFile c f 0]

end Riptide.Sds
