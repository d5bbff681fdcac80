import Verif.Recycle.Call
/-! # Model of the table of methods, the import of the module and its settings, `src/RipTide.cpp:1654-1804`, `src/RipTide.cpp:1825-2097`, `src/RipTide.cpp:1333-1344`,
`src/Compress.cpp:150-162` and `src/SDSFilePython.cpp:1970-1998` -/
namespace Riptide.Table
open Riptide.Recycle.Call (Arg long)

/-! ### The table -/

/-- The flags of a method, `src/RipTide.cpp:1655-1801`: arguments by position, also by name, or none. -/
inductive Kind
  | varargs
  | keywords
  | noargs
  deriving DecidableEq, Repr

/-- An entry of the table: name, function and flags, `src/RipTide.cpp:1646-1652`. -/
structure Entry where
  name : String
  func : String
  kind : Kind
  deriving DecidableEq, Repr

/-- `CSigMathUtilMethods`, `src/RipTide.cpp:1654-1804`, without the entries of null pointers at its end. -/
def methods : List Entry :=
  [⟨"AllocateNumpy", "AllocateNumpy", .varargs⟩, ⟨"RecycleNumpy", "RecycleNumpy", .varargs⟩, ⟨"RecycleGarbageCollectNow", "RecycleGarbageCollectNow", .varargs⟩, ⟨"RecycleSetGarbageCollectTimeout", "RecycleSetGarbageCollectTimeout", .varargs⟩,
   ⟨"RecycleDump", "RecycleDump", .varargs⟩, ⟨"SetRecycleMode", "SetRecycleMode", .varargs⟩, ⟨"Empty", "Empty", .varargs⟩, ⟨"TryRecycleNumpy", "TryRecycleNumpy", .varargs⟩,
   ⟨"TestNumpy", "TestNumpy", .varargs⟩, ⟨"CompareNumpyMemAddress", "CompareNumpyMemAddress", .varargs⟩, ⟨"SetZstdChecksumming", "SetZstdChecksumming", .varargs⟩, ⟨"CompressString", "CompressString", .varargs⟩,
   ⟨"DecompressString", "DecompressString", .varargs⟩, ⟨"CompressDecompressArrays", "CompressDecompressArrays", .varargs⟩, ⟨"CompressFile", "CompressFile", .keywords⟩, ⟨"DecompressFile", "DecompressFile", .keywords⟩,
   ⟨"MultiStackFiles", "MultiStackFiles", .keywords⟩, ⟨"MultiDecompressFiles", "MultiDecompressFiles", .keywords⟩, ⟨"MultiPossiblyStackFiles", "MultiPossiblyStackFiles", .keywords⟩, ⟨"MultiConcatFiles", "MultiConcatFiles", .keywords⟩,
   ⟨"SetLustreGateway", "SetLustreGateway", .varargs⟩, ⟨"BitCount", "BitCount", .varargs⟩, ⟨"IsMember32", "IsMember32", .varargs⟩, ⟨"IsMember64", "IsMember32", .varargs⟩,
   ⟨"IsMemberCategorical", "IsMemberCategorical", .varargs⟩, ⟨"IsMemberCategoricalFixup", "IsMemberCategoricalFixup", .varargs⟩, ⟨"MultiKeyHash", "MultiKeyHash", .varargs⟩, ⟨"MultiKeyGroupBy32", "MultiKeyGroupBy32", .keywords⟩,
   ⟨"MultiKeyGroupBy32Super", "MultiKeyGroupBy32Super", .varargs⟩, ⟨"MultiKeyUnique32", "MultiKeyUnique32", .varargs⟩, ⟨"MultiKeyIsMember32", "MultiKeyIsMember32", .varargs⟩, ⟨"MultiKeyAlign32", "MultiKeyAlign32", .varargs⟩,
   ⟨"MultiKeyRolling", "MultiKeyRolling", .varargs⟩, ⟨"BinCount", "BinCount", .keywords⟩, ⟨"MakeiNext", "MakeiNext", .varargs⟩, ⟨"GroupFromBinCount", "GroupFromBinCount", .varargs⟩,
   ⟨"MergeBinnedAndSorted", "MergeBinnedAndSorted", .varargs⟩, ⟨"GroupByPack32", "GroupByPack32", .varargs⟩, ⟨"GroupByAll32", "GroupByAll32", .varargs⟩, ⟨"GroupByAll64", "GroupByAll64", .varargs⟩,
   ⟨"GroupByAllPack32", "GroupByAllPack32", .varargs⟩, ⟨"EmaAll32", "EmaAll32", .varargs⟩, ⟨"Rolling", "Rolling", .varargs⟩, ⟨"TimeWindow", "TimeWindow", .varargs⟩,
   ⟨"InterpExtrap2d", "InterpExtrap2d", .varargs⟩, ⟨"ThreadingMode", "ThreadingMode", .varargs⟩, ⟨"ConvertSafe", "ConvertSafe", .varargs⟩, ⟨"ConvertUnsafe", "ConvertUnsafe", .varargs⟩,
   ⟨"CombineFilter", "CombineFilter", .varargs⟩, ⟨"CombineAccum2Filter", "CombineAccum2Filter", .varargs⟩, ⟨"CombineAccum1Filter", "CombineAccum1Filter", .varargs⟩, ⟨"MakeiFirst", "MakeiFirst", .varargs⟩,
   ⟨"HStack", "HStack", .varargs⟩, ⟨"SetItem", "SetItem", .varargs⟩, ⟨"PutMask", "PutMask", .varargs⟩, ⟨"GetUpcastNum", "GetUpcastNum", .varargs⟩,
   ⟨"HomogenizeArrays", "HomogenizeArrays", .varargs⟩, ⟨"ShiftArrays", "ShiftArrays", .varargs⟩, ⟨"ApplyRows", "LedgerFunction", .keywords⟩, ⟨"MBGet", "MBGet", .varargs⟩,
   ⟨"BooleanIndex", "BooleanIndex", .varargs⟩, ⟨"BooleanSum", "BooleanSum", .varargs⟩, ⟨"BooleanToFancy", "BooleanToFancy", .keywords⟩, ⟨"ReIndexGroups", "ReIndexGroups", .varargs⟩,
   ⟨"ReverseShuffle", "ReverseShuffle", .varargs⟩, ⟨"Reduce", "Reduce", .varargs⟩, ⟨"AsAnyArray", "AsAnyArray", .keywords⟩, ⟨"AsFastArray", "AsFastArray", .keywords⟩,
   ⟨"BasicMathUnaryOp", "BasicMathUnaryOp", .keywords⟩, ⟨"BasicMathOneInput", "BasicMathOneInput", .varargs⟩, ⟨"BasicMathTwoInputs", "BasicMathTwoInputs", .varargs⟩, ⟨"BasicMathHook", "BasicMathHook", .varargs⟩,
   ⟨"LedgerFunction", "LedgerFunction", .keywords⟩, ⟨"SetFastArrayType", "SetFastArrayType", .varargs⟩, ⟨"Sort", "Sort", .varargs⟩, ⟨"SortInPlace", "SortInPlace", .varargs⟩,
   ⟨"SortInPlaceIndirect", "SortInPlaceIndirect", .varargs⟩, ⟨"ReIndex", "ReIndex", .varargs⟩, ⟨"RemoveTrailingSpaces", "RemoveTrailingSpaces", .varargs⟩, ⟨"LexSort64", "LexSort64", .keywords⟩,
   ⟨"LexSort32", "LexSort32", .keywords⟩, ⟨"GroupFromLexSort", "GroupFromLexSort", .keywords⟩, ⟨"IsSorted", "IsSorted", .varargs⟩, ⟨"Where", "Where", .varargs⟩,
   ⟨"RecordArrayToColMajor", "RecordArrayToColMajor", .varargs⟩, ⟨"NanInfCountFromSort", "NanInfCountFromSort", .varargs⟩, ⟨"BinsToCutsBSearch", "BinsToCutsBSearch", .varargs⟩, ⟨"BinsToCutsSorted", "BinsToCutsSorted", .varargs⟩,
   ⟨"CalculateCRC", "CalculateCRC", .varargs⟩, ⟨"GetNanoTime", "GetNanoTime", .noargs⟩, ⟨"GetTSC", "GetTSC", .noargs⟩, ⟨"GetThreadWakeUp", "GetThreadWakeUp", .noargs⟩,
   ⟨"SetThreadWakeUp", "SetThreadWakeUp", .varargs⟩, ⟨"TimeStringToNanos", "TimeStringToNanos", .varargs⟩, ⟨"DateStringToNanos", "DateStringToNanos", .varargs⟩, ⟨"DateTimeStringToNanos", "DateTimeStringToNanos", .varargs⟩,
   ⟨"StrptimeToNanos", "StrptimeToNanos", .varargs⟩, ⟨"EnableLogging", "EnableLogging", .varargs⟩, ⟨"DisableLogging", "DisableLogging", .varargs⟩, ⟨"GetRiptideLoggers", "GetRiptideLoggers", .noargs⟩]

/-- The functions of the table which take names, with three parameters: `src/Array.cpp:238`, `src/Array.cpp:409`, `src/UnaryOps.cpp:2792`, `src/MultiKey.cpp:2406`, `src/Merge.cpp:1492`, `src/SDSFilePython.cpp:1310`, `src/SDSFilePython.cpp:1668`, `src/Sort.cpp:4340`, `src/RipTide.cpp:544`, `src/Sort.cpp:3623`, `src/Sort.cpp:3630`, `src/SDSFilePython.cpp:1961`, `src/SDSFilePython.cpp:1943`, `src/MultiKey.cpp:970`, `src/SDSFilePython.cpp:1953`, `src/SDSFilePython.cpp:1948`. -/
def three : List String :=
  ["AsAnyArray", "AsFastArray", "BasicMathUnaryOp", "BinCount", "BooleanToFancy", "CompressFile", "DecompressFile", "GroupFromLexSort",
   "LedgerFunction", "LexSort32", "LexSort64", "MultiConcatFiles", "MultiDecompressFiles", "MultiKeyGroupBy32", "MultiPossiblyStackFiles", "MultiStackFiles"]

/-- The functions which take two parameters, in `src/Array.cpp`, `src/BasicMath.cpp`, `src/Bins.cpp`, `src/BitCount.cpp`, `src/CRC32.cpp`, `src/Compress.cpp`, `src/Convert.cpp`, `src/DateTime.cpp`, `src/Ema.cpp`, `src/GroupBy.cpp`, `src/HashFunctions.cpp`, `src/HashLinear.cpp`, `src/Hook.cpp`, `src/Logger.cpp`, `src/Merge.cpp`, `src/MultiKey.cpp`, `src/Recycler.cpp`, `src/Reduce.cpp`, `src/RipTide.cpp`, `src/SDSFilePython.cpp`, `src/Sort.cpp`, `src/TileRepeat.cpp`, `src/TimeWindow.cpp`, `src/UnaryOps.cpp`, each defined at `PyObject * <name>(`; also `ReMapIndex`, `src/Bins.cpp:279`, which is
not in the table. `ApplyRows`, `src/Convert.cpp:3986`, has three and is not in it either. -/
def two : List String :=
  ["AllocateNumpy", "BasicMathHook", "BasicMathOneInput", "BasicMathTwoInputs", "BinsToCutsBSearch", "BinsToCutsSorted", "BitCount", "BooleanIndex",
   "BooleanSum", "CalculateCRC", "CombineAccum1Filter", "CombineAccum2Filter", "CombineFilter", "CompareNumpyMemAddress", "CompressDecompressArrays", "CompressString",
   "ConvertSafe", "ConvertUnsafe", "DateStringToNanos", "DateTimeStringToNanos", "DecompressString", "DisableLogging", "EmaAll32", "Empty",
   "EnableLogging", "GetNanoTime", "GetRiptideLoggers", "GetTSC", "GetThreadWakeUp", "GetUpcastNum", "GroupByAll32", "GroupByAll64",
   "GroupByAllPack32", "GroupByPack32", "GroupFromBinCount", "HStack", "HomogenizeArrays", "InterpExtrap2d", "IsMember32", "IsMemberCategorical",
   "IsMemberCategoricalFixup", "IsSorted", "MBGet", "MakeiFirst", "MakeiNext", "MergeBinnedAndSorted", "MultiKeyAlign32", "MultiKeyGroupBy32Super",
   "MultiKeyHash", "MultiKeyIsMember32", "MultiKeyRolling", "MultiKeyUnique32", "NanInfCountFromSort", "PutMask", "ReIndex", "ReIndexGroups",
   "RecordArrayToColMajor", "RecycleDump", "RecycleGarbageCollectNow", "RecycleNumpy", "RecycleSetGarbageCollectTimeout", "Reduce", "RemoveTrailingSpaces", "ReverseShuffle",
   "Rolling", "SetFastArrayType", "SetItem", "SetLustreGateway", "SetRecycleMode", "SetThreadWakeUp", "SetZstdChecksumming", "ShiftArrays",
   "Sort", "SortInPlace", "SortInPlaceIndirect", "StrptimeToNanos", "TestNumpy", "ThreadingMode", "TimeStringToNanos", "TimeWindow",
   "TryRecycleNumpy", "Where",
   "ReMapIndex"]

/-- How many parameters a function has; see `two` and `three`. `src/Convert.cpp:3986` is `ApplyRows`. -/
def params (f : String) : Option Nat :=
  if f ∈ three ∨ f = "ApplyRows" then some 3 else if f ∈ two then some 2 else none

/-- The table in memory, with null pointers at the end, `src/RipTide.cpp:1803`. -/
def table : List (Option Entry) := methods.map some ++ [none]

/-- `while (CSigMathUtilMethods[count++].ml_name)`, `src/RipTide.cpp:1830-1835`: the null pointer is counted too. -/
def count : List (Option Entry) → Nat
  | [] => 0
  | none :: _ => 1
  | some _ :: l => count l + 1

/-- The copy, `src/RipTide.cpp:1841-1853`: one place more than counted, all null at first. -/
def copied (t : List (Option Entry)) : List (Option Entry) := t.take (count t) ++ [none]

/-- What `PyModule_Create` reads, `src/RipTide.cpp:1856-1859`: up to the first null pointer. -/
def registered : List (Option Entry) → List Entry
  | [] => []
  | none :: _ => []
  | some e :: l => e :: registered l

/-- What a name of the module is: the last entry with this name, `src/RipTide.cpp:1856-1859`. -/
def lookup (l : List Entry) (name : String) : Option Entry := l.reverse.find? fun e => e.name = name

/-- What a call does: there is no such name, Python refuses it, the function runs with so many arguments by position and by name, or it reads parameters nobody gave. -/
inductive Out
  | noName
  | refused
  | runs (func : String) (args kw : Nat)
  | undefined
  deriving DecidableEq, Repr

/-- How Python calls an entry, by the flags of `src/RipTide.cpp:1655-1801`. -/
def invoke (e : Entry) (args kw : Nat) : Out :=
  match e.kind with
  | .varargs => if kw ≠ 0 then .refused else if params e.func = some 2 then .runs e.func args 0 else .undefined
  | .keywords => if params e.func = some 3 then .runs e.func args kw else .undefined
  | .noargs => if args ≠ 0 ∨ kw ≠ 0 then .refused else if params e.func = some 2 then .runs e.func 0 0 else .undefined

/-- A call by name after the import, `src/RipTide.cpp:1654-1859`. -/
def callName (name : String) (args kw : Nat) : Out :=
  match lookup (registered (copied table)) name with
  | none => .noName
  | some e => invoke e args kw

/-! ### The tables of bools -/

/-- The byte `(i >> j) & 1`, `src/RipTide.cpp:1884`. -/
def lutByte (i j : Nat) : Nat := (i >>> j) &&& 1

/-- A word of so many bytes, `src/RipTide.cpp:1879-1895`; the lowest byte comes first in memory. -/
def lutWord (i : Nat) : Nat → Nat
  | 0 => 0
  | n + 1 => lutWord i n + lutByte i n * 256 ^ n

/-- `gBooleanLUT64Inverse`, `src/RipTide.cpp:1898-1901`. -/
def lutInverse64 (i : Nat) : Nat := lutWord i 8 ^^^ 0x0101010101010101

/-- `gBooleanLUT32Inverse`, `src/RipTide.cpp:1903-1906`. -/
def lutInverse32 (i : Nat) : Nat := lutWord i 4 ^^^ 0x01010101

/-! ### The environment -/

/-- `hash_choice_t`, `src/is_member_tg.h:89-93`. -/
inductive Choice
  | linear
  | tbb
  deriving DecidableEq, Repr

/-- The end of the import, `src/RipTide.cpp:2078-2097`, with the value of `RT_NEW_HASH`: `none` is an exception, and the workers are not started. Everything before is taken to
succeed. -/
def importModule : Option (List Nat) → Option Choice
  | none => some .linear
  | some (49 :: _) => some .tbb
  | some _ => none

/-! ### Settings -/

/-- What the calls set: `NoThreading`, `src/MathWorker.h:85`; checksums, `src/ZstdCompress.cpp:12`; and `g_gatewaylist`, `src/SDSFile.cpp:66`. -/
structure Settings where
  single : Bool
  checksum : Bool
  gateways : List (List Nat)
  deriving DecidableEq, Repr

/-- At the start, `src/MathWorker.h:103`, `src/ZstdCompress.cpp:12` and `src/SDSFile.cpp:66`. -/
def Settings.init : Settings := ⟨false, true, []⟩

/-- The calls: a number, what is true or false (none if that cannot be told), a file name which is or is not bytes with a tuple (none if it is no tuple) of bytes or other objects;
`src/RipTide.cpp:1337`, `src/Compress.cpp:154`, `src/SDSFilePython.cpp:1977`. -/
inductive Op
  | threading (x : Arg)
  | checksumming (x : Option Bool)
  | gateway (bytes : Bool) (t : Option (List (Option (List Nat))))

/-- What comes of it; `ends` is an exception of C++ nobody catches, which ends the process. `src/SDSFilePython.cpp:1992`. -/
inductive Reply
  | error
  | number (n : Int)
  | nothing
  | ends
  deriving DecidableEq, Repr

/-- A text of C, `src/SDSFilePython.cpp:1992`: up to the first zero. -/
def cText : List Nat → List Nat
  | [] => []
  | c :: l => if c = 0 then [] else c :: cText l

/-- The loop over the tuple, `src/SDSFilePython.cpp:1988-1993`: a null pointer for what is not bytes. -/
def gateways : List (Option (List Nat)) → Option (List (List Nat))
  | [] => some []
  | none :: _ => none
  | some b :: l => (gateways l).map fun r => cText b :: r

/-- One call, `src/RipTide.cpp:1333-1344`, `src/Compress.cpp:150-162` and `src/SDSFilePython.cpp:1970-1998`. -/
def step (s : Settings) : Op → Settings × Reply
  | .threading x =>
    match long x with
    | none => (s, .error)
    | some n => ({ s with single := decide (n ≠ 0) }, .number (if s.single then 1 else 0))
  | .checksumming none => (s, .error)
  | .checksumming (some b) => ({ s with checksum := b }, .nothing)
  | .gateway true (some t) =>
    match gateways t with
    | none => (s, .ends)
    | some g => ({ s with gateways := g }, .nothing)
  | .gateway _ _ => (s, .error)

/-- Several calls; after the end of the process there are none. `src/RipTide.cpp:1333-1344`. -/
def run (s : Settings) : List Op → Settings × List Reply
  | [] => (s, [])
  | o :: os => let r := step s o; if r.2 = .ends then (r.1, [.ends]) else let rs := run r.1 os; (rs.1, r.2 :: rs.2)

end Riptide.Table
