import Verif.Sds.Include
import Verif.Sds.Save
/-!
# Reading, stacking and joining many files, some of which may be missing or damaged: `src/SDSFilePython.cpp:1668-1970` and `src/SDSFile.cpp:183-207,4215-4460,6345-7053,7830-7980`

What is in a file is left open (the type `α`): the reading of one file is in `File` and `Sections`, the stacking in `Stack`, the joining in `Concat`. Here it
is told which of the files an answer is made of, and what becomes of the errors. Left out: memory which cannot be had, masks (see `Masked`), shared memory, and
files which change while they are read.
-/
namespace Riptide.Sds.Many
open Riptide.Sds.Include (Name PyItem Arg cString)
open Riptide.Sds.Save (asks)

/-- A text, as its bytes. -/
abbrev Text := List Nat

/-- A file, or a section of one, as `DecompressFileInternal` leaves it, `src/SDSFile.cpp:4218-4350`: not valid, with what was put in `g_errorbuffer`; or valid, with
what was put there when the metadata could not be read, whose answer is not looked at (`src/SDSFile.cpp:4237`). -/
inductive Part (α : Type) where
  | unread (says : Text)
  | read (x : α) (trouble : Option Text)
  deriving DecidableEq, Repr

/-- A name on the disk: it cannot be opened (`src/SDSFile.cpp:3818-3825`), or it is no good file, with its `StackType` when at least the header can be read
(`src/SDSFile.cpp:1951-1985`), or it is a file, with what is read at offset 0 and its sections. -/
inductive Disk (α : Type) where
  | missing (why : Text)
  | unread (stack : Option Bool) (says : Text)
  | file (stack : Bool) (x : α) (trouble : Option Text) (sections : List (Part α))
  deriving DecidableEq, Repr

/-- The world: the disk, whether the columns of files fit to be stacked (`TotalDimensionProblems`, `src/SDSFile.cpp:7252-7256`), and whether a file can be made
(`src/SDSFile.cpp:6691-6697`). -/
structure World (α : Type) where
  disk : Name → Disk α
  fits : List α → Bool
  creates : Name → Bool

/-! ### Messages -/

/-- Bytes of a text of the program. -/
def bytes (s : String) : Text := s.toList.map Char.toNat

/-- `vsnprintf` to `g_errorbuffer` of 512 bytes, `src/SDSFile.cpp:183,195`. -/
def keep (t : Text) : Text := t.take 511

/-- A number of at most 20 digits, `%lld`. -/
def digits : Nat → Nat → Text
  | 0, _ => []
  | k + 1, n => if n < 10 then [48 + n] else digits k (n / 10) ++ [48 + n % 10]

/-- `src/SDSFile.cpp:3822-3823` and `src/SDSFile.cpp:7913-7914`. -/
def openText (f why : Text) : Text := keep (bytes "Decompression error cannot create/open file: " ++ f ++ bytes ".  Error: " ++ why)

/-- `src/SDSFile.cpp:6810-6811` and `src/SDSFile.cpp:7088-7089`. -/
def mustText (n : Nat) (f : Text) : Text := keep (bytes "Not all files found : Expected " ++ digits 20 n ++ bytes " files.  Missing " ++ f ++ bytes "\n")

/-- `src/SDSFile.cpp:7244`. -/
def noneText (f : Text) : Text := keep (bytes "MultiDecompress error -- none of the files were valid: " ++ f ++ bytes "\n")

/-- `src/SDSFile.cpp:7255`. -/
def fitText (f : Text) : Text := keep (bytes "MultiDecompress error -- detected a dimension fixup problem " ++ f ++ bytes "\n")

/-- `src/SDSFile.cpp:6684-6687`. -/
def joinNoneText (f : Text) : Text := keep (bytes "Concat error cannot find any valid files to concat to file: " ++ f ++ bytes ".  Error: None")

/-- `src/SDSFile.cpp:6695`. -/
def joinOpenText (f : Text) : Text := keep (bytes "Concat error cannot create/open file: " ++ f ++ bytes ".  Error: none")

/-! ### Opening -/

/-- `DecompressFileInternal` at offset 0 in the mode which stops early, `src/SDSFile.cpp:4218-4350`. -/
def opened (w : World α) (f : Name) : Part α :=
  match w.disk f with
  | .missing why => .unread (openText f why)
  | .unread _ says => .unread says
  | .file _ x t _ => .read x t

/-- What a reading puts into `g_errorbuffer`: the calls of `SetErr_Format` in `src/SDSFile.cpp:1951-1985,2150-2175,3818-3945,4185-4275`. -/
def Part.said : Part α → Option Text
  | .unread s => some s
  | .read _ t => t

/-- `IsFileValid`, `src/SDSFile.cpp:4277-4279`. -/
def Part.valid : Part α → Option α
  | .unread _ => none
  | .read x _ => some x

/-- `g_lastexception` and `g_errorbuffer` after one reading: there is one place for all errors, `src/SDSFile.cpp:183-200`. -/
def after (e : Option Text) (p : Part α) : Option Text :=
  match p.said with
  | some s => some s
  | none => e

/-- `GetFileInfo`, `src/SDSFile.cpp:6345-6352`: the threads open the files in any order. Simplified: two threads which write to the one buffer at the same time are
taken one after the other. -/
def openAll (w : World α) (order : List Name) : Option Text := (order.map (opened w)).foldl after none

/-- The sections of a file when it has more than one, `src/SDSFile.cpp:7005-7026`. -/
def partsOf (w : World α) (f : Name) : List (Name × Part α) :=
  match w.disk f with
  | .file _ x t ss => if 1 < ss.length then ss.map fun p => (f, p) else [(f, .read x t)]
  | _ => [(f, opened w f)]

/-- `ScanForSections`, `src/SDSFile.cpp:6968-7046`: when there are more sections than files, all is opened again, one after the other. -/
def scan (w : World α) (names : List Name) (e : Option Text) : List (Name × Part α) × Option Text :=
  let ps := names.flatMap (partsOf w)
  if names.length < ps.length then (ps, (ps.map (·.2)).foldl after e) else (names.map fun f => (f, opened w f), e)

/-- The last file which is not valid, `src/SDSFile.cpp:6798-6805,7076-7083`. -/
def lastMissing : List (Name × Part α) → Option Name
  | [] => none
  | (f, p) :: l =>
    match lastMissing l with
    | some g => some g
    | none => if p.valid.isNone then some f else none

/-- The contents of the valid ones. -/
def valids (ps : List (Name × Part α)) : List α := ps.filterMap fun p => p.2.valid

/-! ### Answers -/

/-- What is answered: a list with an entry for every file or section, empty for those which are not valid, and whether it has the infos only
(`src/SDSFilePython.cpp:1083-1150`); or one table of all (`src/SDSFile.cpp:7762-7763`). -/
inductive Answer (α : Type) where
  | list (info : Bool) (l : List (Option α))
  | table (l : List α)
  deriving DecidableEq, Repr

/-- What `SDSReadManyFiles` leaves: its result, the error, and the file which was written. -/
structure Left (α : Type) where
  result : Option (Answer α)
  error : Option Text
  wrote : Option (Name × List α)
  deriving DecidableEq, Repr

/-- What the caller gets: an answer; `None`; an exception with the text which was given as a format; an exception of Python's; an answer or `None` while an
exception is set, which Python makes a `SystemError`; or undefined behaviour. -/
inductive Outcome (α : Type) where
  | answer (a : Answer α)
  | none
  | error (format : Text)
  | system
  | undefined
  deriving DecidableEq, Repr

/-- `ReadManyFiles` in the modes which read, `src/SDSFile.cpp:6780-6953`. -/
def readMany (info must : Bool) (ps : List (Name × Part α)) (e : Option Text) : Left α :=
  match must, lastMissing ps with
  | true, some f => ⟨none, some (mustText ps.length f), none⟩
  | _, _ => ⟨some (.list info (ps.map fun p => p.2.valid)), e, none⟩

/-- `ReadAndStackFiles`, `src/SDSFile.cpp:7054-7800`, which does not look at its mode and clears the errors of the files, `src/SDSFile.cpp:7273`. Files without any
column, for which `None` is answered, are left out. -/
def stackMany (w : World α) (must : Bool) (first : Name) (ps : List (Name × Part α)) : Left α :=
  match must, lastMissing ps with
  | true, some f => ⟨none, some (mustText ps.length f), none⟩
  | _, _ =>
    if valids ps = [] then ⟨none, some (noneText first), none⟩
    else if w.fits (valids ps) then ⟨some (.table (valids ps)), none, none⟩
    else ⟨none, some (fitText first), none⟩

/-- `ReadManyFiles` in the mode which joins and `SDSConcatFiles`, `src/SDSFile.cpp:6678-6773,6780-6826`; without a name `none`: a null pointer is printed or opened.
Troubles while the file is written are left out, and the name must not be that of one of the files. -/
def joinMany (w : World α) (must : Bool) (out : Option Name) (ps : List (Name × Part α)) (e : Option Text) : Option (Left α) :=
  match must, lastMissing ps with
  | true, some f => some ⟨none, some (mustText ps.length f), none⟩
  | _, _ =>
    match out with
    | none => none
    | some o =>
      if valids ps = [] then some ⟨none, some (joinNoneText o), none⟩
      else if w.creates o then some ⟨none, e, some (o, valids ps)⟩
      else some ⟨none, some (joinOpenText o), none⟩

/-- The functions `MultiDecompressFiles`, `MultiStackFiles`, `MultiPossiblyStackFiles` and `MultiConcatFiles`, `src/SDSFilePython.cpp:1943-1964`. -/
inductive Kind where
  | read
  | stack
  | either
  | join
  deriving DecidableEq, Repr

/-- The arguments: the list of files, the mode, `output=`, whether `mustexist=` is `True`, and whether the reading of the other keywords left an exception behind
(see `Include`). -/
structure Args where
  kind : Kind
  files : List PyItem
  mode : Int := 3
  output : Option PyItem := none
  must : Bool := false
  stale : Bool := false
  deriving DecidableEq, Repr

/-- `GetStringFromDict`, `src/SDSFilePython.cpp:1181-1226`: only a string counts, and for one which is not ASCII `strlen(NULL)` is called: `none`. -/
def outName : Option PyItem → Option (Option Name)
  | some (.str c) => if c.all (· < 128) then some (some (cString c)) else none
  | _ => some none

/-- The kind which the header of the first file decides, `src/SDSFile.cpp:7903-7943`; `none` is an error. -/
def decideKind (w : World α) (first : Name) : Except Text Bool :=
  match w.disk first with
  | .missing why => .error (openText first why)
  | .unread none says => .error says
  | .unread (some s) _ => .ok s
  | .file s _ _ _ => .ok s

/-- `SDSReadManyFiles`, `src/SDSFile.cpp:7875-7980`, from the opening on; in the mode which joins the sections are not looked for, `src/SDSFile.cpp:6789-6792`. -/
def manyFiles (w : World α) (kind : Kind) (info must : Bool) (out : Option Name) (first : Name) (names order : List Name) : Option (Left α) :=
  let e := openAll w order
  match kind with
  | .read => some (readMany info must (scan w names e).1 (scan w names e).2)
  | .stack => some (stackMany w must first (scan w names e).1)
  | .either =>
    match decideKind w first with
    | .error s => some ⟨none, some s, none⟩
    | .ok true => some (stackMany w must first (scan w names e).1)
    | .ok false => some (readMany false must (scan w names e).1 (scan w names e).2)
  | .join => joinMany w must out (names.map fun f => (f, opened w f)) e

/-- The end of `InternalDecompressFiles`, `src/SDSFilePython.cpp:1909-1935`, and `CheckErrors`, `src/SDSFilePython.cpp:362-370`. -/
def finish (n : Nat) (stale : Bool) (l : Left α) : Outcome α :=
  match l.error with
  | some m =>
    if asks m then .undefined
    else
      match l.result with
      | none => .error m
      | some _ => if n = 1 then .error m else .system
  | none =>
    if stale then .system
    else
      match l.result with
      | none => .none
      | some a => .answer a

/-- What a call does: what the caller gets, the error which is left for the next call, and the file which was written. -/
structure Did (α : Type) where
  out : Outcome α
  error : Option Text
  wrote : Option (Name × List α)
  deriving DecidableEq, Repr

/-- `InternalDecompressFiles`, `src/SDSFilePython.cpp:1765-1935`, after calls which left the error `e`; `order`: see `openAll`. -/
def many (w : World α) (e : Option Text) (x : Args) (order : List Name) : Did α :=
  match (if x.kind = .join then outName x.output else some none) with
  | none => ⟨.undefined, e, none⟩
  | some out =>
    let stale := x.stale || (Arg.list x.files).leavesError || (decide (x.kind = .join) && out.isNone)
    match (Arg.list x.files).names with
    | [] => ⟨finish (α := α) 0 stale ⟨none, e, none⟩, e, none⟩
    | f :: l =>
      match manyFiles w x.kind (decide (x.mode ≠ 3)) x.must out f (f :: l) order with
      | none => ⟨.undefined, e, none⟩
      | some r => ⟨finish (l.length + 1) stale r, r.error, r.wrote⟩

/-- `DecompressFile` without a share, `src/SDSFilePython.cpp:1668-1756`, `src/SDSFile.cpp:7829-7864,4365-4460`: what is at offset 0; an error is looked at only
when there is no result. -/
def one (w : World α) (f : List Nat) (mode : Int) (stale : Bool) : Did α :=
  match opened w (cString f) with
  | .unread m => ⟨if asks m then .undefined else .error m, some m, none⟩
  | .read x t => ⟨if stale then .system else .answer (.list (decide (mode = 5)) [some x]), t, none⟩

/-- A call of one of these functions; `saved`: a call of `CompressFile`, which clears the errors and leaves its own, `src/SDSFilePython.cpp:1355`, `src/SDSFile.cpp:7816,2235`. -/
inductive Call where
  | one (f : List Nat) (mode : Int) (stale : Bool)
  | many (x : Args) (order : List Name)
  | saved (trouble : Option Text)
  deriving DecidableEq, Repr

/-- The error which is left after calls, one after the other. -/
def history (w : World α) : Option Text → List Call → Option Text
  | e, [] => e
  | _, .one f m s :: l => history w (one w f m s).error l
  | e, .many x o :: l => history w (many w e x o).error l
  | _, .saved t :: l => history w t l

end Riptide.Sds.Many
