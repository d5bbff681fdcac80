import Verif.Sds.Sections
import Verif.Arrays.Info
import Verif.Arrays.NumsSpec
/-!
# Saving arrays and loading them: `CompressFile` and `DecompressFile`, `src/SDSFilePython.cpp:1310-1519` and `1668-1756`

Without a share name; the folders, which only a share uses, are left out. Counts of references are left out, and so are types of compression which do
not fit 16 bits.
-/
namespace Riptide.Sds.Save
open Riptide.Nums (Mem memOf)
open Riptide.Nums.Info (Arg Obj Entry build taken)

/-! ### What is passed -/

/-- An item of the list of names, `src/SDSFilePython.cpp:486-518`: something which is no tuple or a tuple whose first item is not bytes; a tuple without
a first item, or bytes without a second item; bytes and a value, where `none` is a value which is no integer. -/
inductive NameArg where
  | other
  | short
  | named (name : List Nat) (value : Option Int)
  deriving DecidableEq

/-- The arguments, `src/SDSFilePython.cpp:1329-1333`, the keyword `bandsize` if it is an integer (`src/SDSFilePython.cpp:1251-1269`), and the characters
of the keyword `section` if it is a string (`src/SDSFilePython.cpp:1207-1226`). -/
structure Args where
  file : List Nat
  metaData : List Nat
  arrays : Obj
  names : List NameArg
  compType : Int
  level : Int
  fileType : Int
  band : Option Int
  sect : Option (List Nat)

/-- What the machine gives: memory for the entries, for the copies, for the names (`src/SDSFilePython.cpp:1363`) and for the descriptions
(`src/SDSFilePython.cpp:1387`), and what the system says if the file cannot be opened (`src/SDSFile.cpp:2230-2238`). -/
structure World where
  table : Bool
  room : Nat → Bool
  namesMem : Bool
  infoMem : Bool
  trouble : Option (List Nat)

/-- What is saved: under which name, whether it is appended as a section, `src/SDSFilePython.cpp:1480-1489`, and what is written. -/
structure Saved where
  file : List Nat
  sect : Option (List Nat)
  input : Input
  deriving DecidableEq

/-- What comes of a call: an exception; `NULL` without an exception; `None`, with what was saved, and whether an exception is set all the same (Python
then raises a `SystemError`). -/
inductive Outcome where
  | undefined
  | error
  | silent
  | done (saved : Option Saved) (pending : Bool)
  deriving DecidableEq

/-! ### Names and keywords -/

/-- A string of C ends at its first zero: `while ((*pListNames++ = *pName++))`, `src/SDSFilePython.cpp:501`, `strlen` of `src/SDSFilePython.cpp:1187`, and
the file name which is passed to `open`. -/
def cut (l : List Nat) : List Nat := l.takeWhile (· != 0)

/-- The byte which is kept of a value, `src/SDSFilePython.cpp:495,505`: `PyLong_AsLongLongAndOverflow` answers -1 for what is no integer and for what has no
room in 64 bits. -/
def valueByte : Option Int → Nat
  | none => 255
  | some v => if -2 ^ 63 ≤ v ∧ v < 2 ^ 63 then (v % 256).toNat else 255

/-- The names which are kept, `src/SDSFilePython.cpp:484-518`: what is no tuple of bytes is skipped. `none`: an item behind the end of a tuple is read. -/
def nameItems : List NameArg → Option (List (List Nat × Nat))
  | [] => some []
  | .other :: l => nameItems l
  | .short :: _ => none
  | .named s v :: l => (nameItems l).map fun r => (s, valueByte v) :: r

/-- A value which is no integer leaves an exception, `src/SDSFilePython.cpp:495`. -/
def NameArg.raises : NameArg → Bool
  | .named _ none => true
  | _ => false

/-- `GetBandSize`, `src/SDSFilePython.cpp:1251-1269`: `PyLong_AsLongLong` answers -1 for what has no room in 64 bits; and `src/SDSFile.cpp:2871-2873`. -/
def bandOf : Option Int → Nat
  | none => 0
  | some b => if b ≤ 0 ∨ 2 ^ 63 ≤ b then 0 else if b < 10000 then 10000 else b.toNat

/-- A band size which has no room leaves an exception, `src/SDSFilePython.cpp:1260`. -/
def bandRaises : Option Int → Bool
  | none => false
  | some b => decide (b < -2 ^ 63) || decide (2 ^ 63 ≤ b)

/-! ### The message -/

/-- The characters which make a directive with an argument in `PyErr_Format`: `c d i u x s p A U V S R T` (`PyUnicode_FromFormat` of Python, called from
`src/SDSFilePython.cpp:366`). -/
def directives : List Nat := [99, 100, 105, 117, 120, 115, 112, 65, 85, 86, 83, 82, 84]

/-- Does the format ask for an argument (`src/SDSFilePython.cpp:366` gives none)? Widths and lengths are left out, and what follows a `%` which makes no directive
is not looked at. -/
def asks : List Nat → Bool
  | [] => false
  | 37 :: 37 :: l => asks l
  | 37 :: c :: _ => directives.contains c
  | _ :: l => asks l

/-- "Compression error cannot create/open file: ", `src/SDSFile.cpp:2235`. -/
def troubleHead : List Nat :=
  "Compression error cannot create/open file: ".toList.map Char.toNat

/-- ".  Error: ", `src/SDSFile.cpp:2235`. -/
def troubleMid : List Nat := ".  Error: ".toList.map Char.toNat

/-- The message in `g_errorbuffer`, `src/SDSFile.cpp:183,195,2235-2236`: at most 511 characters. -/
def message (file trouble : List Nat) : List Nat := (troubleHead ++ cut file ++ troubleMid ++ trouble).take 511

/-! ### Descriptions of the arrays -/

/-- The pattern of a number in 64 bits. -/
def pattern (s : Int) : Nat := (s % 2 ^ 64).toNat

/-- The two bits of `PyArray_FLAGS` which are looked at later, `src/SDSFilePython.cpp:1434` and `src/SDSFile.h:158-168`. -/
def flagsOf (l : Binary.Lay) : Nat := (if l.cContig then 1 else 0) + if l.fContig then 2 else 0

/-- The bytes which are written of an array: `ArrayLength * ItemSize` from `pData` on, `src/SDSFile.cpp:2566,2678` and `src/SDSFilePython.cpp:1397-1402`. -/
def bytesAt (b : Nums.Arr) (m : Mem) : Option (List Nat) :=
  (List.range (b.lay.len * b.lay.item)).mapM fun (k : Nat) => (m (k : Int)).map BitVec.toNat

/-- The description of one item, `src/SDSFilePython.cpp:1395-1452`; its dimensions are cut to five in `writeArr`. `none`: memory is read which is not the
array's. -/
def info (room : Bool) : Arg → Option ArrIn
  | .array a m =>
    match taken true room a m with
    | none => none
    | some (b, mb, _) => (bytesAt b mb).map fun d => ⟨⟨b.lay.dims, b.lay.item, d⟩, b.type, flagsOf b.lay, b.lay.strides.map pattern⟩
  | _ => some ⟨⟨[], 0, []⟩, 0, 0, []⟩

/-- The descriptions, `src/SDSFilePython.cpp:1395-1452`. -/
def infos (room : Nat → Bool) : Nat → List Arg → Option (List ArrIn)
  | _, [] => some []
  | i, x :: l => (info (room i) x).bind fun y => (infos room (i + 1) l).map fun r => y :: r

/-! ### Saving -/

/-- What is given to `SDSWriteFile`, `src/SDSFilePython.cpp:1454-1489`: the size of the metadata is cut to 32 bits, and the number of names is that of the
list. -/
def inputOf (x : Args) (names : List (List Nat × Nat)) (l : List ArrIn) : Input where
  names := buildNames names
  nameCount := x.names.length
  metaData := x.metaData.take (x.metaData.length % 2 ^ 32)
  arrays := l
  zstd := decide (x.compType = 1)
  level := (x.level % 2 ^ 16).toNat
  fileType := (x.fileType % 2 ^ 16).toNat
  author := 1
  bandSize := bandOf x.band

/-- Whether an exception is set when `None` is returned. -/
def Args.raises (x : Args) : Bool := bandRaises x.band || x.names.any NameArg.raises

/-- From the descriptions on, `src/SDSFilePython.cpp:1454-1518`. -/
def write (w : World) (x : Args) (sect : Option (List Nat)) (names : List (List Nat × Nat)) (l : List ArrIn) : Outcome :=
  match w.trouble with
  | some t => if asks (message x.file t) then .undefined else .error
  | none => .done (some ⟨cut x.file, sect, inputOf x names l⟩) x.raises

/-- The arrays, `src/SDSFilePython.cpp:1376-1452`: without a table the call goes on to its end. -/
def saveArrays (w : World) (x : Args) (sect : Option (List Nat)) (names : List (List Nat × Nat)) : Outcome :=
  match build w.table w.room false true x.arrays with
  | .undefined => .undefined
  | .refused => .done none true
  | .silent => .done none x.raises
  | .ok es _ =>
    if w.infoMem = false ∧ es ≠ [] then .undefined
    else match infos w.room 0 (x.arrays.list.getD []) with
      | none => .undefined
      | some l => write w x sect names l

/-- The names, `src/SDSFilePython.cpp:1355-1370`: their bytes are written behind the memory if there is too little. -/
def saveNames (w : World) (x : Args) (sect : Option (List Nat)) : Outcome :=
  if w.namesMem = false then if bandRaises x.band then .error else .silent
  else match nameItems x.names with
    | none => .undefined
    | some names => if namesRoom x.names.length < (buildNames names).length then .undefined else saveArrays w x sect names

/-- `CompressFile`, `src/SDSFilePython.cpp:1310-1519`, without a share name. A section with a character which is not ASCII gives `strlen` a null pointer
(`src/SDSFilePython.cpp:1196-1200`). -/
def save (w : World) (x : Args) : Outcome :=
  match x.sect with
  | none => saveNames w x none
  | some s =>
    if s.any (fun ch => decide (128 ≤ ch)) then .undefined
    else if 64 ≤ (cut s).length then .error
    else saveNames w x (some (cut s))

/-! ### Loading -/

/-- What comes of loading: the metadata, the names (`none` is a null pointer in the list), the arrays (`none` is `None`). -/
inductive Loaded where
  | undefined
  | error
  | ok (metaData : List Nat) (names : List (Option (List Nat × Nat))) (arrays : List (Option (Nums.Arr × Mem)))

/-- `FixupDType`, `src/SDSFile.cpp:3126-3154`. -/
def fixType (dtype item : Nat) : Nat :=
  if dtype = 7 then if item = 4 then 5 else 9
  else if dtype = 8 then if item = 4 then 6 else 10
  else dtype

/-- The number with a pattern of 64 bits. -/
def unpattern (n : Nat) : Int := if n < 2 ^ 63 then (n : Int) else (n : Int) - 2 ^ 64

/-- The array which numpy makes (`PyArray_New`, `src/RipTide.cpp:677-679`), always in the order of bytes of the machine. -/
def madeOf (o : OutArr) : Nums.Arr := ⟨fixType o.dtype o.item, ⟨o.dims, o.strides.map unpattern, o.item⟩, false⟩

/-- `AllocateArrayCallback` and `DecompressFileArray`, `src/SDSFilePython.cpp:1523-1596` and `src/SDSFile.cpp:2477-2547`: the array has memory for the product
of its dimensions, and all stored bytes are read into it. Objects are pointers of another process. Bytes which could not be read are unknown. Left out: items
without bytes, and no memory. -/
def loadArr (o : OutArr) : Option (Option (Nums.Arr × Mem)) :=
  if o.dims = [] then some none
  else if fixType o.dtype o.item = 17 then none
  else match o.data with
    | none => some (some (madeOf o, fun _ => none))
    | some l => if prod o.dims * o.item < l.length then none else some (some (madeOf o, memOf 0 (l.map (BitVec.ofNat 8))))

/-- `MakeListNames`, `src/SDSFilePython.cpp:531-566`: the list is made for all names and then filled. `none`: memory is read which is not the file's. -/
def loadNames (o : Out) : Option (List (Option (List Nat × Nat))) :=
  if o.names = [] then some []
  else (makeNames o.nameCount o.names).map fun l => l.map some ++ List.replicate (o.nameCount - l.length) none

/-- `DecompressFile` from what the file says on: the name of every array is looked up, `src/SDSFile.cpp:3520`. Metadata which could not be read are whatever is in
the memory. -/
def loadOut (o : Out) : Loaded :=
  match loadNames o, o.metaData, o.arrays.mapM loadArr with
  | some names, some md, some l => if o.names ≠ [] ∧ o.nameCount < o.arrays.length then .undefined else .ok md names l
  | _, _, _ => .undefined

/-- `DecompressFile`, `src/SDSFilePython.cpp:1668-1756`, of a file without sections, without a mask and without lists. -/
def load (c : Codec) (f : List Nat) : Loaded :=
  match readFile c f 0 with
  | none => .error
  | some o => loadOut o

end Riptide.Sds.Save
