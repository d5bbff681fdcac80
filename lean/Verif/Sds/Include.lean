/-! # Model of the choice of columns when SDS files are read, `src/SDSFile.cpp:1098-1245,3299-3360`, `src/SDSFilePython.cpp:424-466,1232-1290,1668-1935`

Names are lists of bytes without zeros. A hash set of names is the list of its members without repetitions. -/
namespace Riptide.Sds.Include

/-- A name: its bytes up to the zero byte at its end, `src/SDSFile.cpp:1133-1141`. -/
abbrev Name := List Nat

/-- The byte `/`, `src/SDSFile.cpp:1146,7852`. -/
def slash : Nat := 47

/-- The byte `!`, `src/SDSFile.cpp:1162`. -/
def bang : Nat := 33

/-- The first position of a byte: `string_view::find`, `src/SDSFile.cpp:1194`. -/
def firstPos (c : Nat) : Name → Option Nat
  | [] => none
  | a :: l => if a = c then some 0 else (firstPos c l).map (· + 1)

/-- The last position of a byte: `string_view::rfind`, `src/SDSFile.cpp:1146,1230`. -/
def lastPos (c : Nat) : Name → Option Nat
  | [] => none
  | a :: l =>
    match lastPos c l with
    | some i => some (i + 1)
    | none => if a = c then some 0 else none

/-- The class `SDSIncludeExclude`: the set, the item added last, the number of items and the separator, `src/SDSFile.cpp:1157-1163`. -/
structure Incl where
  items : List Name
  cached : Name
  count : Nat
  sep : Nat
deriving DecidableEq, Repr

/-- The list as constructed, `src/SDSFile.cpp:1157-1163`. -/
def Incl.new : Incl := ⟨[], [], 0, 0⟩

/-- `ClearLists`, which leaves the item added last, `src/SDSFile.cpp:1101-1105`. -/
def Incl.clear (i : Incl) : Incl := { i with items := [], count := 0 }

/-- `AddItem`, `src/SDSFile.cpp:1114-1119`. -/
def Incl.add (i : Incl) (s : Name) : Incl :=
  if s ∈ i.items then { i with cached := s }
  else { i with items := i.items ++ [s], cached := s, count := i.count + 1 }

/-- `AddItems`, `src/SDSFile.cpp:1121-1130`. -/
def Incl.addAll (i : Incl) (l : List Name) (sep : Nat) : Incl := l.foldl Incl.add { i with sep := sep }

/-- `FindItem`: with one member the item added last is compared, `src/SDSFile.cpp:1165-1176`. -/
def Incl.find (i : Incl) (s : Name) : Bool := if i.count = 1 then decide (i.cached = s) else decide (s ∈ i.items)

/-- The second look of a column check: the part in front of the first `!`, `src/SDSFile.cpp:1190-1208`. -/
def Incl.findBang (i : Incl) (s : Name) : Bool :=
  match firstPos bang s with
  | some p => i.find (s.take p)
  | none => false

/-- The second look of a folder check: the part up to the last separator, `src/SDSFile.cpp:1225-1245`. -/
def Incl.findFolder (i : Incl) (s : Name) : Bool :=
  match lastPos i.sep s with
  | some p => i.find (s.take (p + 1))
  | none => false

/-- The name a column check looks for: what follows the last `/`, if that is not the first byte, `src/SDSFile.cpp:1141-1151`. -/
def column (s : Name) : Name :=
  match lastPos slash s with
  | some p => if 0 < p then s.drop (p + 1) else s
  | none => s

/-- `IsIncluded` with `FindIncluded`, `src/SDSFile.cpp:1133-1154,1179-1246`. -/
def Incl.included (i : Incl) (s : Name) : Bool :=
  if i.count = 0 then true
  else if i.sep = 0 then i.find (column s) || i.findBang (column s)
  else i.find s || i.findFolder s

/-- Whether a name ends in `/`, `src/SDSFile.cpp:3329-3335`. -/
def pureFolder (s : Name) : Bool := decide (s.getLast? = some slash)

/-- `IsNameIncluded`; the callers pass lists, never `NULL`, `src/SDSFile.cpp:3299-3360,7861,7953-7955`. -/
def nameIncluded (inc fol : Incl) (s : Name) (oneFile : Bool) : Bool :=
  if oneFile then
    if inc.count = 0 then
      if fol.count = 0 then true else fol.included s
    else if fol.count ≠ 0 && pureFolder s && fol.included s then true
    else inc.included s && fol.included s
  else inc.included s

/-- What Python puts in a list: bytes, a string of code points, or another object, `src/SDSFilePython.cpp:436-460`. -/
inductive PyItem where
  | bytes (b : List Nat)
  | str (c : List Nat)
  | other
deriving DecidableEq, Repr

/-- Bytes as a C string: up to the first zero byte, `src/SDSFilePython.cpp:439-444,454-458`. -/
def cString (b : List Nat) : Name := b.takeWhile (· ≠ 0)

/-- One item of the list: the name, if it gives one, `src/SDSFilePython.cpp:436-461`. -/
def PyItem.name : PyItem → Option Name
  | .bytes b => some (cString b)
  | .str c => if c.all (· < 128) then some (cString c) else none
  | .other => none

/-- Whether the item leaves a Python exception behind: `PyUnicode_AsASCIIString` failed and nobody looks, `src/SDSFilePython.cpp:451-452`. -/
def PyItem.leavesError : PyItem → Bool
  | .str c => !c.all (· < 128)
  | _ => false

/-- An argument of a keyword, `src/SDSFilePython.cpp:1232-1245,1275-1288,1813-1822`. -/
inductive Arg where
  | absent
  | notList
  | list (l : List PyItem)
deriving DecidableEq, Repr

/-- `StringListToVector` of the argument; without a list there is no vector and nothing is added, `src/SDSFilePython.cpp:424-466,1237-1244,1280-1287,1815-1818`. -/
def Arg.names : Arg → List Name
  | .list l => l.filterMap PyItem.name
  | _ => []

/-- Whether reading the argument leaves a Python exception behind, `src/SDSFilePython.cpp:424-466`. -/
def Arg.leavesError : Arg → Bool
  | .list l => l.any PyItem.leavesError
  | _ => false

/-- A file: whether it holds folders, and the names of its arrays in order, `src/SDSFile.cpp:3490-3542,3580`. -/
structure File where
  oneFile : Bool
  names : List Name
deriving DecidableEq, Repr

/-- What a call does: the names of the arrays read, the others are `None`; and whether an exception is left behind, with which Python turns the result into a `SystemError`, `src/SDSFile.cpp:3534-3558`. -/
structure Result where
  read : List Name
  leavesError : Bool
deriving DecidableEq, Repr

/-- The arrays of a file which are read, `src/SDSFile.cpp:3534-3558`. -/
def readNames (inc fol : Incl) (f : File) : List Name := f.names.filter (fun s => nameIncluded inc fol s f.oneFile)

/-- `DecompressFile`: `include` is not looked at; `sections` are read and stored but never looked at, `src/SDSFilePython.cpp:1668-1750`, `src/SDSFile.cpp:7830-7864`. -/
def readFile (f : File) (_include folders sections : Arg) : Result :=
  ⟨readNames Incl.new (Incl.new.addAll folders.names slash) f, folders.leavesError || sections.leavesError⟩

/-- `MultiDecompressFiles`, for each of the files which its list names: `src/SDSFilePython.cpp:1765-1935`, `src/SDSFile.cpp:7875-7980`. -/
def readMany (disk : Name → File) (files : List PyItem) (include_ folders sections : Arg) : List (Name × List Name) × Bool :=
  let inc := Incl.new.addAll include_.names 0
  let fol := Incl.new.addAll folders.names slash
  ((Arg.list files).names.map (fun f => (f, readNames inc fol (disk f))),
    include_.leavesError || folders.leavesError || sections.leavesError || (Arg.list files).leavesError)

/-- What may be done with a list of names, `src/SDSFile.cpp:1101-1130`. -/
inductive Op where
  | add (s : Name)
  | clear
deriving DecidableEq, Repr

/-- A history of a list, `src/SDSFile.cpp:1101-1130`. -/
def Incl.run (i : Incl) (h : List Op) : Incl :=
  h.foldl (fun i o => match o with | .add s => i.add s | .clear => i.clear) i

end Riptide.Sds.Include
