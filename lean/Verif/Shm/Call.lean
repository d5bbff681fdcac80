import Verif.Sds.ShareFile
/-! # Model of the life of shares on Linux, `src/SharedMemory.cpp`, `src/SDSFile.cpp`

`Verif/Sds/Share.lean` and `Verif/Sds/ShareFile.lean` are about the bytes of a share and take it for granted that there is one.  Here are
the calls which make shares, find them and let go of them: names, objects, descriptors, mappings and the counters which are kept for them,
for several processes.  What is in an object is the number of a table. -/
namespace Riptide.Shm

/-- The name of a share as its bytes, made by `MakeShareName`, `src/SDSFile.cpp:1044-1094`. -/
abbrev Name := List Nat

/-- What is in an object, written by `src/SDSFile.cpp:2929-3001` or `src/SDSFile.cpp:3994-4114`: nothing but zeros, a part of a table, or a
table.  This stands for the bytes. -/
inductive Content where
  | blank
  | torn (t : Nat)
  | whole (t : Nat)
  deriving DecidableEq, Repr

/-- An object of shared memory, made by `shm_open`, `src/SharedMemory.cpp:719,725`: who owns it, whether others may read and write it (the
mode 0666 without the bits of the mask of the process), its size and what is in it.  Groups are not modelled. -/
structure Obj where
  owner : Nat
  read : Bool
  write : Bool
  size : Nat
  content : Content
  deriving DecidableEq, Repr

/-- What all processes see: the directory of names, `src/SharedMemory.cpp:719,724,809,814`, and all objects which were ever made; the number of
an object is its place. -/
structure Kernel where
  names : Name → Option Nat
  objs : List Obj

/-- What a descriptor is for: `FileHandle`, `src/SharedMemory.h:55`, or anything else. -/
inductive Fd where
  | other
  | shm (o : Nat)
  deriving DecidableEq, Repr

/-- `MAPPED_VIEW_STRUCT`, `src/SharedMemory.h:52-58`, with the object which is mapped, whether it may be written through this mapping, whether
this memory was not yet given back, and the counter, which has no value at first. -/
structure View where
  live : Bool
  fd : Nat
  size : Nat
  obj : Nat
  writes : Bool
  count : Option Nat
  deriving DecidableEq, Repr

/-- A process: its user, what others may do with the objects it makes, its table of descriptors (as long as its limit), the structures which
were ever made, `g_SMMap`, `src/SDSFile.cpp:878-879`, `DefaultMemoryIO.pMapStruct`, `src/SDSFile.cpp:959,1096`, and whether `SIGBUS` is blocked.
It has one thread. -/
structure Proc where
  user : Nat
  read : Bool
  write : Bool
  fds : List (Option Fd)
  views : List View
  shares : Name → Option Nat
  cur : Option Nat
  blocked : Bool

/-- What the system answers: whether `ftruncate` works, `src/SharedMemory.cpp:763`, whether `mmap` works for a size which is not zero,
`src/SharedMemory.cpp:772,845`, whether there is memory for the structure, `src/SharedMemory.cpp:785,858`, and whether there is memory for all
pages which are written. -/
structure Env where
  trunc : Bool
  map : Bool
  heap : Bool
  room : Bool
  deriving DecidableEq, Repr

/-- The outcome of a part of a call of a process, `src/SDSFile.cpp:2910-3031,4376-4458`: it goes on, the process is killed by a signal, or the behaviour is undefined. -/
inductive Res (α : Type) where
  | ok (k : Kernel) (p : Proc) (a : α)
  | killed (k : Kernel)
  | ub

/-! ### The system -/

/-- The descriptor which `shm_open`, `src/SharedMemory.cpp:719,725,809,814`, and `open`, `src/SDSFile.cpp:734`, give out: the lowest one which is
free. -/
def lowest (fds : List (Option Fd)) : Option Nat := fds.findIdx? fun f => f.isNone

/-- A process with another descriptor, as after `src/SharedMemory.cpp:719` or `src/SharedMemory.cpp:875`. -/
def Proc.setFd (p : Proc) (f : Nat) (d : Option Fd) : Proc := { p with fds := p.fds.set f d }

/-- A directory with another entry, as after `src/SharedMemory.cpp:719` or `src/SharedMemory.cpp:724`. -/
def Kernel.setName (k : Kernel) (n : Name) (o : Option Nat) : Kernel := { k with names := fun m => if m = n then o else k.names m }

/-- `shm_open` with `O_RDWR | O_CREAT | O_EXCL`, `src/SharedMemory.cpp:719,725`: nothing happens if it fails. -/
def openNew (k : Kernel) (p : Proc) (n : Name) : Option (Kernel × Proc × Nat) :=
  match lowest p.fds, k.names n with
  | some f, none =>
    if Sds.shmName n then
      some (Kernel.setName ⟨k.names, k.objs ++ [⟨p.user, p.read, p.write, 0, .blank⟩]⟩ n (some k.objs.length),
        p.setFd f (some (.shm k.objs.length)), f)
    else none
  | _, _ => none

/-- Whether a user may open an object for reading or for both, `src/SharedMemory.cpp:809,814`. -/
def mayOpen (u : Nat) (writes : Bool) (o : Obj) : Bool := o.owner == u || (o.read && (o.write || !writes))

/-- `shm_open` with `O_RDWR` or `O_RDONLY`, `src/SharedMemory.cpp:809,814`: the process, the descriptor and the object. -/
def openOld (k : Kernel) (p : Proc) (n : Name) (writes : Bool) : Option (Proc × Nat × Nat) :=
  match lowest p.fds, k.names n with
  | some f, some o =>
    match k.objs[o]? with
    | some x => if Sds.shmName n && mayOpen p.user writes x then some (p.setFd f (some (.shm o)), f, o) else none
    | none => none
  | _, _ => none

/-- `shm_unlink`, `src/SharedMemory.cpp:724`: only the owner may remove a name, as the directory is sticky; the object stays.  The
superuser, who may do everything, is not modelled. -/
def unlink (k : Kernel) (u : Nat) (n : Name) : Kernel :=
  match k.names n with
  | none => k
  | some o =>
    match k.objs[o]? with
    | some x => if x.owner = u then k.setName n none else k
    | none => k

/-- Another size of an object, `ftruncate`, `src/SharedMemory.cpp:763`. -/
def Kernel.resize (k : Kernel) (o size : Nat) : Kernel := { k with objs := k.objs.modify o fun x => { x with size := size } }

/-- Other contents of an object, `src/SDSFile.cpp:2929-3001,3994-4114`. -/
def Kernel.fill (k : Kernel) (o : Nat) (c : Content) : Kernel := { k with objs := k.objs.modify o fun x => { x with content := c } }

/-! ### `UtilSharedMemoryBegin`, `UtilSharedMemoryCopy`, `UtilSharedMemoryEnd` -/

/-- The descriptor of a new object, or what is left behind without one, `src/SharedMemory.cpp:719-733`; the object is the last one. -/
inductive Opened where
  | no (k : Kernel) (p : Proc)
  | yes (k : Kernel) (p : Proc) (f : Nat)

/-- `if (fd <= 0)` of an answer of `shm_open`, `src/SharedMemory.cpp:721,727`: a descriptor 0 counts as a failure and stays open. -/
def judge (k : Kernel) (p : Proc) : Option (Kernel × Proc × Nat) → Opened
  | none => .no k p
  | some (k', p', f) => if f = 0 then .no k' p' else .yes k' p' f

/-- The second attempt, `src/SharedMemory.cpp:723-733`. -/
def openAgain (n : Name) : Opened → Opened
  | .yes k p f => .yes k p f
  | .no k p => judge (unlink k p.user n) p (openNew (unlink k p.user n) p n)

/-- `src/SharedMemory.cpp:719-733`. -/
def openFresh (k : Kernel) (p : Proc) (n : Name) : Opened := openAgain n (judge k p (openNew k p n))

/-- A structure which was just made, `src/SharedMemory.cpp:785-793,858-866`; its counter is not set. -/
def Proc.newView (p : Proc) (f size o : Nat) (writes : Bool) : Proc :=
  { p with views := p.views ++ [⟨true, f, size, o, writes, none⟩], cur := some p.views.length }

/-- The rest of `UtilSharedMemoryBegin`, `src/SharedMemory.cpp:763-795`, of an object `o` with the descriptor `f`: whether it worked.  That
`ftruncate` failed is not seen, as `errno` is never negative. -/
def beginRest (k : Kernel) (p : Proc) (f o size : Nat) (e : Env) : Res Bool :=
  if size ≠ 0 ∧ e.map = true then
    if e.heap then .ok (if e.trunc then k.resize o size else k) (p.newView f size o true) true else .ub
  else .ok (if e.trunc then k.resize o size else k) p false

/-- `UtilSharedMemoryBegin`, `src/SharedMemory.cpp:704-796`, for `DefaultMemoryIO`. -/
def begin (k : Kernel) (p : Proc) (n : Name) (size : Nat) (e : Env) : Res Bool :=
  match openFresh k { p with cur := none } n with
  | .no k p => .ok k p false
  | .yes k p f => beginRest k p f (k.objs.length - 1) size e

/-- What was opened of a share which is there, `src/SharedMemory.cpp:809-822`. -/
inductive Found where
  | no (p : Proc)
  | yes (p : Proc) (f o : Nat) (writes : Bool)

/-- The second attempt, `src/SharedMemory.cpp:811-822`. -/
def findRead (k : Kernel) (p : Proc) (n : Name) : Found :=
  match openOld k p n false with
  | none => .no p
  | some (p', f, o) => if f = 0 then .no p' else .yes p' f o false

/-- `src/SharedMemory.cpp:809-822`: a descriptor 0 counts as a failure and stays open. -/
def find (k : Kernel) (p : Proc) (n : Name) : Found :=
  match openOld k p n true with
  | none => findRead k p n
  | some (p', f, o) => if f = 0 then findRead k p' n else .yes p' f o true

/-- The size of an object, `fstat`, `src/SharedMemory.cpp:836-838`. -/
def Kernel.sizeOf (k : Kernel) (o : Nat) : Nat :=
  match k.objs[o]? with
  | some x => x.size
  | none => 0

/-- `MapExisting`, `src/SDSFile.cpp:1018-1028`, with `UtilSharedMemoryCopy`, `src/SharedMemory.cpp:800-868`: whether it worked.  The answer is
never more than 0, so that the share is never counted, `src/SDSFile.cpp:1022-1025`. -/
def mapExisting (k : Kernel) (p : Proc) (n : Name) (e : Env) : Res Bool :=
  match find k { p with cur := none } n with
  | .no p => .ok k p false
  | .yes p f o writes =>
    if k.sizeOf o ≠ 0 ∧ e.map = true then
      if e.heap then .ok k (p.newView f (k.sizeOf o) o writes) true else .ub
    else .ok k p false

/-- `UtilSharedMemoryEnd`, `src/SharedMemory.cpp:870-879`, for the structure `v`; the name stays. -/
def Proc.endView (p : Proc) (v : Nat) : Proc :=
  match p.views[v]? with
  | some x => { p with views := p.views.modify v fun x => { x with live := false }, fds := p.fds.set x.fd none }
  | none => p

/-! ### `src/SDSFile.cpp` -/

/-- `AddSharedMemory`, `src/SDSFile.cpp:883-901`: a name which is known is counted in the structure which was recorded first; `none` is a
write into memory which was given back. -/
def addShared (p : Proc) (n : Name) (v : Nat) : Option Proc :=
  match p.shares n with
  | none => some { p with shares := fun m => if m = n then some v else p.shares m, views := p.views.modify v fun x => { x with count := some 1 } }
  | some v0 =>
    match p.views[v0]? with
    | some x => if x.live then some { p with views := p.views.modify v0 fun x => { x with count := x.count.map (· + 1) } } else none
    | none => none

/-- `Destroy`, `src/SDSFile.cpp:1030-1038`. -/
def Proc.destroy (p : Proc) : Proc :=
  match p.cur with
  | none => p
  | some v => { p.endView v with cur := none }

/-- `Begin`, `src/SDSFile.cpp:996-1014`, from the answer of `UtilSharedMemoryBegin` on. -/
def counted (n : Name) : Res Bool → Res Bool
  | .ok k p true =>
    match addShared p n (p.views.length - 1) with
    | some p => .ok k p true
    | none => .ub
  | .ok k p false => .ok k p false
  | .killed k => .killed k
  | .ub => .ub

/-- What is written to the new object, which is that of the last structure, `src/SDSFile.cpp:2929-3001,3994-4114`: whether all of it.  A page of a mapping behind the end of the object
or without memory raises `SIGBUS`. -/
def written (k : Kernel) (p : Proc) (t : Nat) (e : Env) : Kernel × Bool :=
  match p.views[p.views.length - 1]? with
  | some x =>
    if k.sizeOf x.obj < x.size then (k, false)
    else if e.room then (k.fill x.obj (.whole t), true)
    else (k.fill x.obj (.torn t), false)
  | none => (k, false)

/-- Writing of a table into the new share, `src/SDSFile.cpp:2912-3026`: after a `SIGBUS` the handler jumps back with `longjmp`,
`src/SDSFile.cpp:2813-2819`, so that the signal stays blocked, and a signal which is blocked kills when it is raised by an access. -/
def saveFill (k : Kernel) (p : Proc) (t : Nat) (e : Env) : Res Unit :=
  match written k p t e with
  | (k, true) => .ok k p.destroy ()
  | (k, false) => if p.blocked then .killed k else .ok k { p with blocked := true }.destroy ()

/-- `SDSWriteFileInternal` with a share from the answer of `Begin` on, `src/SDSFile.cpp:2912-3031`: a failure is only logged. -/
def saveRest (t : Nat) (e : Env) : Res Bool → Res Unit
  | .ok k p true => saveFill k p t e
  | .ok k p false => .ok k { p with cur := none } ()
  | .killed k => .killed k
  | .ub => .ub

/-- `SDSWriteFileInternal` with a share, `src/SDSFile.cpp:2882-3032`, of the table `t` with this size.  Python gets `None` always,
`src/SDSFilePython.cpp:1491-1518`: nothing of what fails sets an error. -/
def save (k : Kernel) (p : Proc) (n : Name) (t size : Nat) (e : Env) : Res Unit := saveRest t e (counted n (begin k p n size e))

/-- A file which can be opened and has a good header, `src/SDSFile.cpp:3815-3836`: its table, the size of its share and whether all of it can be read. -/
structure FileIn where
  table : Nat
  size : Nat
  good : Bool
  deriving DecidableEq, Repr

/-- What reading gives: a table in a share, a table of a file, or an error, `src/SDSFile.cpp:4414,4458`. -/
inductive Reply where
  | shared (c : Content)
  | file (t : Nat)
  | error
  deriving DecidableEq, Repr

/-- `StartDecompressedFile`, `src/SDSFile.cpp:3815-3836`: the process with the descriptor of the file, or without one.  A descriptor 0 counts
as a failure and stays open, `src/SDSFile.cpp:3820`. -/
def openFile (p : Proc) : Option FileIn → Proc × Option Nat
  | none => (p, none)
  | some _ =>
    match lowest p.fds with
    | none => (p, none)
    | some f => if f = 0 then (p.setFd 0 (some .other), none) else (p.setFd f (some .other), some f)

/-- `DecompressFileInternal`, `src/SDSFile.cpp:4219-4350`: the file itself is read. -/
def readPlain (k : Kernel) (p : Proc) (file : Option FileIn) : Res Reply :=
  match openFile p file, file with
  | (p, some f), some x => .ok k (p.setFd f none) (if x.good then .file x.table else .error)
  | (p, _), _ => .ok k p .error

/-- The share of the current structure is read, `src/SDSFile.cpp:4405-4414`; it stays open. -/
def readShared (k : Kernel) (p : Proc) : Res Reply :=
  match p.cur with
  | none => .ub
  | some v =>
    match p.views[v]? with
    | none => .ub
    | some x =>
      match k.objs[x.obj]? with
      | none => .ub
      | some o => .ok k p (.shared o.content)

/-- Filling of the share from the file, `src/SDSFile.cpp:3994-4114`, with the descriptor `f` of the file, which is closed after that,
`src/SDSFile.cpp:4141`.  `SIGBUS` is not handled here.  A file which is not good is noticed after the first pages were written. -/
def copyFill (k : Kernel) (p : Proc) (f : Nat) (x : FileIn) (e : Env) : Res Bool :=
  match written k p x.table e with
  | (k, false) => .killed k
  | (k, true) =>
    if x.good then .ok k (p.setFd f none) true
    else
      match p.views[p.views.length - 1]? with
      | some v => .ok (k.fill v.obj (.torn x.table)) (p.setFd f none) false
      | none => .ub

/-- `CopyIntoSharedMemoryInternal` from the answer of `Begin` on, `src/SDSFile.cpp:3991-4122`; a failure lets `pMapStruct` be null. -/
def copyRest (f : Nat) (x : FileIn) (e : Env) : Res Bool → Res Bool
  | .ok k p true => copyFill k p f x e
  | .ok k p false => .ok k ({ p with cur := none }.setFd f none) false
  | .killed k => .killed k
  | .ub => .ub

/-- `CopyIntoSharedMemory`, `src/SDSFile.cpp:4130-4145`. -/
def copyIn (k : Kernel) (p : Proc) (n : Name) (file : Option FileIn) (e : Env) : Res Bool :=
  match openFile p file, file with
  | (p, some f), some x => copyRest f x e (counted n (begin k p n x.size e))
  | (p, _), _ => .ok k p false

/-- `src/SDSFile.cpp:4391-4458`: after the copy. -/
def loadCopied (file : Option FileIn) : Res Bool → Res Reply
  | .ok k p true => readShared k p
  | .ok k p false => readPlain k p.destroy file
  | .killed k => .killed k
  | .ub => .ub

/-- `src/SDSFile.cpp:4376-4458`: after the search for the share. -/
def loadMapped (n : Name) (info : Bool) (file : Option FileIn) (e : Env) : Res Bool → Res Reply
  | .ok k p true => readShared k p
  | .ok k p false => if info then readPlain k p file else loadCopied file (copyIn k p n file e)
  | .killed k => .killed k
  | .ub => .ub

/-- `DecompressFile` with a share, `src/SDSFile.cpp:4365-4458`; `info` is `COMPRESSION_MODE_INFO`, which does not copy. -/
def load (k : Kernel) (p : Proc) (n : Name) (info : Bool) (file : Option FileIn) (e : Env) : Res Reply :=
  loadMapped n info file e (mapExisting k p n e)

/-! ### Several processes -/

/-- All processes which call `SDSWriteFile` and `SDSReadFile`, `src/SDSFile.cpp:7809-7836`; `none` is one which was killed. -/
structure World where
  k : Kernel
  procs : Nat → Option Proc

/-- A call of a process with a share: `SDSWriteFile` or `SDSReadFile`, `src/SDSFile.cpp:7809-7836`. -/
inductive Call where
  | save (n : Name) (t size : Nat) (e : Env)
  | load (n : Name) (info : Bool) (file : Option FileIn) (e : Env)

/-- A world in which a process is another, as after `src/SDSFile.cpp:7809-7836`. -/
def World.setProc (w : World) (who : Nat) (k : Kernel) (p : Option Proc) : World :=
  ⟨k, fun q => if q = who then p else w.procs q⟩

/-- The world after a call, `src/SDSFile.cpp:7809-7836`. -/
def World.after {α : Type} (w : World) (who : Nat) : Res α → Option World
  | .ok k p _ => some (w.setProc who k (some p))
  | .killed k => some (w.setProc who k none)
  | .ub => none

/-- One call, `src/SDSFile.cpp:7809-7836`; a process which was killed makes none. -/
def World.call (w : World) (who : Nat) (c : Call) : Option World :=
  match w.procs who with
  | none => some w
  | some p =>
    match c with
    | .save n t size e => w.after who (save w.k p n t size e)
    | .load n info file e => w.after who (load w.k p n info file e)

/-- Calls one after the other, `src/SDSFile.cpp:7809-7836`; `none` is undefined behaviour. -/
def World.run : World → List (Nat × Call) → Option World
  | w, [] => some w
  | w, c :: cs =>
    match w.call c.1 c.2 with
    | none => none
    | some w => w.run cs

end Riptide.Shm
