/-! # Model of what reading hands to Python, `src/SDSFilePython.cpp:631-787` and 957-1177

The objects which `ReadFinal`, `ReadFinalWrap`, `ReadFinalStack` and `GetFileHeaderDict` build of what was read, the exceptions which are set on the way or were set before,
and the references which are never given back. Small objects are always made; only arrays may miss memory. This simplifies. -/
namespace Riptide.SdsResult

/-- A header, `src/SDSFile.h:303-369`, as far as it is shown. -/
structure Header where
  versionHigh : Int
  versionLow : Int
  compMode : Int
  compType : Int
  compLevel : Int
  fileType : Int
  stackType : Int
  authorId : Int
  totalArrayCompressedSize : Int
  totalArrayUncompressedSize : Int
  arrayBlockSize : Int
  arrayBlockOffset : Int
  arraysWritten : Int
  arrayFirstOffset : Int
  nameBlockSize : Int
  nameBlockOffset : Int
  nameBlockCount : Int
  bandBlockSize : Int
  bandBlockOffset : Int
  bandBlockCount : Int
  bandSize : Int
  sectionBlockSize : Int
  sectionBlockOffset : Int
  sectionBlockCount : Int
  sectionBlockReservedSize : Int
  fileOffset : Int
  timeStamp : Nat
  deriving DecidableEq, Repr

/-- The block of an array, `src/SDSFile.h:271-299`, as far as it is shown. `dims` are the five places of `Dimensions`. -/
structure Blk where
  ndim : Int
  dims : List Int
  dtype : Int
  flags : Int
  item : Int
  deriving DecidableEq, Repr

/-- The sections of a file, `src/SDSFile.h:396-427`: names and offsets of the same number, and the offset of this section. -/
structure Section where
  names : List (List Nat)
  offsets : List Int
  offset : Int
  deriving DecidableEq, Repr

/-- What was read of a file, `SDS_FINAL_CALLBACK`, `src/SDSFile.h:590-609`. Names are those of `MakeListNames` with their flags. There are as many blocks and arrays as
`arraysWritten`; an array is none if it was not wanted or could not be made. -/
structure Final where
  header : Header
  info : Bool
  blocks : List Blk
  arrays : List (Option Nat)
  metadata : Option (List Nat)
  names : List (List Nat × Nat)
  sections : Option Section
  file : Option (List Nat)
  deriving DecidableEq, Repr

/-- A value of the dictionary of a header, `src/SDSFilePython.cpp:648`, 693, 706 and 707. A text which is none is a null pointer in a list. -/
inductive Val
  | int (n : Int)
  | text (s : List Nat)
  | texts (l : List (Option (List Nat)))
  | ints (l : List Int)
  deriving DecidableEq, Repr

/-- The dictionary, `src/SDSFilePython.cpp:653-719`. -/
abbrev Dict := List (String × Val)

/-- `SDSArrayInfo` of Python, `src/SDSFilePython.cpp:189-211`. -/
structure ArrInfo where
  shape : List Int
  dtype : Int
  flags : Int
  item : Int
  deriving DecidableEq, Repr

/-- The second field of `SDSFileInfo`: what is known of arrays (a null pointer if that could not be made), or the arrays (`None` if there is none),
`src/SDSFilePython.cpp:778` and 1073. -/
inductive Cols
  | infos (l : List (Option ArrInfo))
  | arrays (l : List (Option Nat))
  deriving DecidableEq, Repr

/-- `SDSFileInfo` of Python, `src/SDSFilePython.cpp:238-260`. -/
structure FileInfo where
  metadata : List Nat
  cols : Cols
  names : List (List Nat × Nat)
  dict : Dict
  deriving DecidableEq, Repr

/-- `(long long)` of an unsigned number, `src/SDSFilePython.cpp:690`. -/
def toI64 (n : Nat) : Int := if n < 2 ^ 63 then n else (n : Int) - 2 ^ 64

/-- What `GetFileHeaderDict` takes from the header, `src/SDSFilePython.cpp:658-690`. -/
def headerPairs (h : Header) : List (String × Int) :=
  [("VersionHigh", h.versionHigh), ("VersionLow", h.versionLow), ("CompMode", h.compMode), ("CompType", h.compType), ("CompLevel", h.compLevel),
   ("FileType", h.fileType), ("StackType", h.stackType), ("AuthorId", h.authorId), ("TotalArrayCompressedSize", h.totalArrayCompressedSize),
   ("TotalArrayUncompressedSize", h.totalArrayUncompressedSize), ("ArrayBlockSize", h.arrayBlockSize), ("ArrayBlockOffset", h.arrayBlockOffset),
   ("ArraysWritten", h.arraysWritten), ("ArrayFirstOffset", h.arrayFirstOffset), ("NameBlockSize", h.nameBlockSize), ("NameBlockOffset", h.nameBlockOffset),
   ("NameBlockCount", h.nameBlockCount), ("BandBlockSize", h.bandBlockSize), ("BandBlockOffset", h.bandBlockOffset), ("BandBlockCount", h.bandBlockCount),
   ("BandSize", h.bandSize), ("SectionBlockSize", h.sectionBlockSize), ("SectionBlockOffset", h.sectionBlockOffset), ("SectionBlockCount", h.sectionBlockCount),
   ("SectionBlockReservedSize", h.sectionBlockReservedSize), ("FileOffset", h.fileOffset), ("TimeStampUTCNanos", toI64 h.timeStamp)]

/-- An entry of the dictionary whose value is not given back: `PyDict_SetItemString` takes a reference of its own (`src/SDSFilePython.cpp:648`, 693, 706, 707). -/
abbrev Leak := String

/-- A dictionary with the exception and the values nobody gives back, `src/SDSFilePython.cpp:653-719`. -/
structure DictRes where
  dict : Dict
  exc : Bool
  leaks : List Leak
  deriving DecidableEq, Repr

/-- The entries of the header alone, `src/SDSFilePython.cpp:658-690`. -/
def headerDict (h : Header) : Dict := (headerPairs h).map fun p => (p.1, .int p.2)

/-- The names of the sections, `src/SDSFilePython.cpp:701-713`: none if there are none. -/
def sectionLists (dec : List Nat → Option (List Nat)) (s : Section) : Dict :=
  if s.names = [] then [] else [("Sections", .texts (s.names.map dec)), ("SectionOffsets", .ints s.offsets)]

/-- What is said of sections, `src/SDSFilePython.cpp:696-714`. -/
def sectionDict (dec : List Nat → Option (List Nat)) : Option Section → Dict
  | none => []
  | some s => ("SectionOffset", .int s.offset) :: sectionLists dec s

/-- A name of a section is not UTF-8, so an exception is set, `src/SDSFilePython.cpp:711`. -/
def badSection (dec : List Nat → Option (List Nat)) : Option Section → Bool
  | none => false
  | some s => s.names.any fun n => (dec n).isNone

/-- The dictionary with all its entries, of which none is given back, `src/SDSFilePython.cpp:646-707`. -/
def withLeaks (d : Dict) (exc : Bool) : DictRes := ⟨d, exc, d.map Prod.fst⟩

/-- `GetFileHeaderDict`, `src/SDSFilePython.cpp:653-719`; `dec` is `PyUnicode_FromString`. `none`: a null pointer is put into the dictionary, line 693. -/
def fileDict (dec : List Nat → Option (List Nat)) (h : Header) (file : Option (List Nat)) (sec : Option Section) (exc : Bool) : Option DictRes :=
  match file with
  | none => some (withLeaks (headerDict h) exc)
  | some f =>
    match dec f with
    | none => none
    | some t => some (withLeaks (headerDict h ++ ("Filename", .text t) :: sectionDict dec sec) (exc || badSection dec sec))

/-- `FixupDType`, `src/SDSFilePython.cpp:599-629`. -/
def fixup (dtype item : Int) : Int :=
  if dtype = 7 then (if item = 4 then 5 else 9)
  else if dtype = 8 then (if item = 4 then 6 else 10)
  else dtype

/-- What is known of an array with the exception which is set, `src/SDSFilePython.cpp:751-778` and 189-211: with an exception it is a null pointer. `PyTuple_New` of a
negative number sets one; more than five dimensions are read behind the five there are: `none`. -/
def arrayInfo (exc : Bool) (b : Blk) : Option (Option ArrInfo × Bool) :=
  if b.ndim < 0 then some (none, true)
  else if 5 < b.ndim then none
  else if exc then some (none, true)
  else some (some ⟨b.dims.take b.ndim.toNat, fixup b.dtype b.item, b.flags, b.item⟩, false)

/-- The loop over the arrays, `src/SDSFilePython.cpp:744-779`. -/
def arrayInfos : Bool → List Blk → Option (List (Option ArrInfo) × Bool)
  | exc, [] => some ([], exc)
  | exc, b :: bs =>
    match arrayInfo exc b with
    | none => none
    | some (i, exc) =>
      match arrayInfos exc bs with
      | none => none
      | some (is, exc) => some (i :: is, exc)

/-- `GetMetaData`, `src/SDSFilePython.cpp:633-644`: `{}` without any. -/
def metaBytes : Option (List Nat) → List Nat
  | none => [123, 125]
  | some m => m

/-- The columns, `src/SDSFilePython.cpp:1100-1110`. -/
def colsOf (exc : Bool) (f : Final) : Option (Cols × Bool) :=
  if f.info then (arrayInfos exc f.blocks).map fun r => (.infos r.1, r.2)
  else some (.arrays f.arrays, exc)

/-- What is handed over of one file: a null pointer or `SDSFileInfo`, `src/SDSFilePython.cpp:1117` and 253-259. -/
structure Wrapped where
  item : Option FileInfo
  exc : Bool
  leaks : List Leak
  deriving DecidableEq, Repr

/-- `ReadFinalWrap`, `src/SDSFilePython.cpp:1082-1118`, with `Create_SDSFileInfo`, `238-260`: if any exception is set, everything is given back and a null pointer returned. -/
def wrap (dec : List Nat → Option (List Nat)) (exc : Bool) (f : Final) : Option Wrapped :=
  match colsOf exc f with
  | none => none
  | some (cols, exc) =>
    match fileDict dec f.header f.file f.sections exc with
    | none => none
    | some d => some ⟨if d.exc then none else some ⟨metaBytes f.metadata, cols, f.names, d.dict⟩, d.exc, d.leaks⟩

/-- All files, `src/SDSFilePython.cpp:1140-1150`. -/
def wraps (dec : List Nat → Option (List Nat)) : Bool → List Final → Option (List (Option FileInfo) × Bool × List Leak)
  | exc, [] => some ([], exc, [])
  | exc, f :: fs =>
    match wrap dec exc f with
    | none => none
    | some w =>
      match wraps dec w.exc fs with
      | none => none
      | some (is, exc, ls) => some (w.item :: is, exc, w.leaks ++ ls)

/-- What the caller of the module gets: `None`, a list (in which there may be null pointers), a list although an exception is set (a `SystemError`), or anything; `src/SDSFilePython.cpp:1121-1155`. -/
inductive Reply
  | none
  | list (l : List (Option FileInfo))
  | both (l : List (Option FileInfo))
  | noneBoth
  | undefined
  deriving DecidableEq, Repr

/-- The end of `ReadFinal` and of the call, `src/SDSFilePython.cpp:1153` and 1746-1755, with what nobody gives back. -/
def readFinal (dec : List Nat → Option (List Nat)) (exc : Bool) (fs : List Final) : Reply × List Leak :=
  if fs = [] then (if exc then .noneBoth else .none, [])
  else
    match wraps dec exc fs with
    | none => (.undefined, [])
    | some (l, exc, ls) => (if exc then .both l else .list l, ls)

/-! ### Stacked files -/

/-- A column of several files, `SDS_STACK_CALLBACK`, `src/SDSFile.h:579-586`; `offsets` begin with 0 and have one more entry than there are files. -/
structure Column where
  arr : Option Nat
  name : List Nat
  enum : Int
  offsets : List Int
  deriving DecidableEq, Repr

/-- A file of a stack, `SDS_STACK_CALLBACK_FILES`, `src/SDSFile.h:569-575`. -/
structure SFile where
  name : List Nat
  metadata : List Nat
  header : Header
  deriving DecidableEq, Repr

/-- `SDSArrayCutoffs` of Python, `src/SDSFilePython.cpp:162-187`. `names` are null pointers if they could not be made, `cutoffs` are `None`. `header` is `None` without files. -/
structure Cutoffs where
  arrays : List (Option Nat)
  names : List (Option (List Nat × Nat))
  cutoffs : List (Option (List Int))
  metadata : List (List Nat)
  files : List (List Nat)
  header : Option Dict
  deriving DecidableEq, Repr

/-- What is known of a column, `src/SDSFilePython.cpp:989-1016`: `enough` says whether there is memory for its offsets. -/
structure ColRes where
  name : Option (List Nat × Nat)
  cut : Option (List Int)
  exc : Bool
  deriving DecidableEq, Repr

/-- One column, `src/SDSFilePython.cpp:989-1016`: the flags are cut to a byte (`213`), the first offset is passed over (1007). -/
def column (enough exc : Bool) (files : Nat) (c : Column) : ColRes :=
  ⟨if exc then none else some (c.name, (c.enum % 256).toNat), if enough then some ((c.offsets.drop 1).take files) else none, exc || !enough⟩

/-- The loop over the columns, `src/SDSFilePython.cpp:971-1017`. -/
def columns (enough : Bool) (files : Nat) : Bool → List Column → List ColRes × Bool
  | exc, [] => ([], exc)
  | exc, c :: cs => let r := column enough exc files c; let rs := columns enough files r.exc cs; (r :: rs.1, rs.2)

/-- What the caller of a stack gets, `src/SDSFilePython.cpp:1158-1177`. -/
inductive StackReply
  | none
  | value (c : Cutoffs)
  | raised
  | noneBoth
  deriving DecidableEq, Repr

/-- The dictionary of the first file, `src/SDSFilePython.cpp:1032-1040`. -/
def firstHeader : List SFile → Option Dict
  | [] => none
  | f :: _ => some (headerDict f.header)

/-- `ReadFinalStack`, `src/SDSFilePython.cpp:1158-1177`, with `ReadFinalStackArrays`, `959-1046`. -/
def readStack (enough exc : Bool) (cs : List Column) (fs : List SFile) : StackReply × List Leak :=
  if cs = [] then (if exc then .noneBoth else .none, [])
  else
    let r := columns enough fs.length exc cs
    let leaks := ((firstHeader fs).getD []).map Prod.fst
    if r.2 then (.raised, leaks)
    else (.value ⟨cs.map Column.arr, r.1.map ColRes.name, r.1.map ColRes.cut, fs.map SFile.metadata, fs.map SFile.name, firstHeader fs⟩, leaks)

end Riptide.SdsResult
