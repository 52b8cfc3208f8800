/-!
# Processes that share a file store (/repo/asyncz/stores/file.py, /repo/asyncz/file_locking.py)

What several processes do to the file of one task id, system call by system call.  Files of different ids do not affect each
other.
-/
namespace Asyncz
namespace FileRace

/-- contents of files (stores/file.py:142-163) -/
abbrev Bytes := List Nat

/-- The file system, as far as the task's path is concerned (library; stores/file.py:75-175): the file (numbered) the path leads
to, the contents of all files, and the locks held: file, process, exclusive or not. -/
structure FS where
  path : Option Nat
  data : List Bytes
  locks : List (Nat × Nat × Bool)
  deriving DecidableEq, Repr

/-- What a process does (stores/file.py:74-84, 137-171): `read` is `lookup_task`, or what `get_tasks` does with the file's
directory entry (98-113). -/
inductive Op where
  | add (v : Bytes)
  | update (v : Bytes)
  | read
  | delete
  deriving DecidableEq, Repr

/-- Its result (stores/file.py:74-84, 137-171): done, `ConflictIdError`, `TaskLookupError`, a task, no task. -/
inductive Res (τ : Type) where
  | ok
  | conflict
  | missing
  | task (t : τ)
  | nothing
  deriving DecidableEq, Repr

/-- Where it is (stores/file.py:74-84, 137-171); `i` is the open file. -/
inductive PC (τ : Type) where
  | ready
  /-- the file is open, not locked -/
  | lock (i : Nat)
  /-- `write_ob.truncate()` comes next -/
  | trunc (i : Nat)
  /-- `write_ob.write(…)` comes next -/
  | write (i : Nat)
  /-- leaving `with_lock` comes next; `buffered`: the bytes are in the buffer of the file object -/
  | unlock (i : Nat) (buffered : Bool)
  /-- leaving `with open` comes next, which flushes the buffer -/
  | close (i : Nat) (buffered : Bool)
  /-- reading comes next -/
  | data (i : Nat)
  /-- unlocking and closing come next -/
  | unread (i : Nat) (r : Option τ)
  /-- `unlink`, after an exception, comes next -/
  | unlink
  | done (r : Res τ)
  deriving DecidableEq, Repr

/-- a process (stores/file.py:74-84, 137-171) -/
structure Proc (τ : Type) where
  op : Op
  pc : PC τ
  deriving DecidableEq, Repr

/-- all of it (stores/file.py) -/
structure St (τ : Type) where
  fs : FS
  procs : List (Proc τ)
  deriving DecidableEq, Repr

/-- the bytes an operation writes (stores/file.py:143-147, 157-161) -/
def Op.bytes : Op → Bytes
  | .add v => v
  | .update v => v
  | _ => []

/-- the content of a file (library; stores/file.py:79) -/
def FS.get (f : FS) (i : Nat) : Bytes := f.data[i]?.getD []

/-- writing at offset 0 (library; stores/file.py:143, 157): what lies behind stays -/
def FS.put (f : FS) (i : Nat) (v : Bytes) : FS := { f with data := f.data.set i (v ++ (f.get i).drop v.length) }

/-- `flock` would be granted to process `p` (library; file_locking.py:108-113) -/
def FS.free (f : FS) (p i : Nat) (ex : Bool) : Bool :=
  f.locks.all fun l => !(l.1 = i && l.2.1 ≠ p && (ex || l.2.2))

/-- the locks after process `p` unlocks or closes file `i` (library; file_locking.py:115-117) -/
def FS.release (f : FS) (p i : Nat) : FS := { f with locks := f.locks.filter fun l => !(l.1 = i && l.2.1 = p) }

variable {τ : Type}

/-- One step of process `p`: the file system and where it is then (stores/file.py:74-84, 98-113, 137-171).  `buf`: the size of
the buffer of a file object (more is written at once); `dec`: `rebuild_task` of the bytes, `none` if it raises.  A process
that waits for a lock does nothing. -/
def stepProc (buf : Nat) (dec : Bytes → Option τ) (p : Nat) (f : FS) (q : Proc τ) : FS × PC τ :=
  match q.op, q.pc with
  | .add _, .ready =>
    -- `open("xb")` (file.py:142)
    match f.path with
    | some _ => (f, .done .conflict)
    | none => ({ f with path := some f.data.length, data := f.data ++ [[]] }, .lock f.data.length)
  | .update _, .ready =>
    -- `open("r+b")` (file.py:155)
    match f.path with
    | some i => (f, .lock i)
    | none => (f, .done .missing)
  | .read, .ready =>
    -- `open("rb")` (file.py:78, 107)
    match f.path with
    | some i => (f, .lock i)
    | none => (f, .unlink)
  | .delete, .ready =>
    -- `unlink(missing_ok=False)` (file.py:165-171)
    match f.path with
    | some _ => ({ f with path := none }, .done .ok)
    | none => (f, .done .missing)
  | .add _, .lock i =>
    if f.free p i true then ({ f with locks := f.locks ++ [(i, p, true)] }, .write i) else (f, .lock i)
  | .update _, .lock i =>
    if f.free p i true then ({ f with locks := f.locks ++ [(i, p, true)] }, .trunc i) else (f, .lock i)
  | .read, .lock i =>
    if f.free p i false then ({ f with locks := f.locks ++ [(i, p, false)] }, .data i) else (f, .lock i)
  | .update _, .trunc i => ({ f with data := f.data.set i [] }, .write i)
  | op, .write i =>
    -- file.py:143-147, 157-161
    if op.bytes.length > buf then (f.put i op.bytes, .unlock i false) else (f, .unlock i true)
  | _, .unlock i b => (f.release p i, .close i b)
  | op, .close i b => (if b then f.put i op.bytes else f, .done .ok)
  | _, .data i => (f, .unread i (dec (f.get i)))
  | _, .unread i r => (f.release p i, match r with
      | some t => .done (.task t)
      | none => .unlink)
  | _, .unlink => ({ f with path := none }, .done .nothing)
  | _, pc => (f, pc)

/-- process `p` makes a step (stores/file.py) -/
def step (buf : Nat) (dec : Bytes → Option τ) (s : St τ) (p : Nat) : St τ :=
  match s.procs[p]? with
  | none => s
  | some q =>
    let r := stepProc buf dec p s.fs q
    ⟨r.1, s.procs.set p { q with pc := r.2 }⟩

/-- an interleaving: which process makes the next step (stores/file.py) -/
def run (buf : Nat) (dec : Bytes → Option τ) (s : St τ) (sched : List Nat) : St τ := sched.foldl (step buf dec) s

/-- the processes at the beginning (stores/file.py) -/
def begin (f : FS) (ops : List Op) : St τ := ⟨f, ops.map fun o => ⟨o, .ready⟩⟩

/-- The file system after a process alone has made `k` steps of an operation and was killed (stores/file.py:137-171; library): the
kernel drops its locks, and what is in the buffer of its file object is lost. -/
def killed (buf : Nat) (dec : Bytes → Option τ) (f : FS) (op : Op) (k : Nat) : FS :=
  { (run buf dec (begin f [op]) (List.replicate k 0)).fs with locks := [] }

/-- What the next reader alone finds, and the file system then (stores/file.py:74-84, 98-113). -/
def readBack (buf : Nat) (dec : Bytes → Option τ) (f : FS) : FS × Option (Res τ) :=
  let s := run buf dec (begin f [Op.read]) (List.replicate 5 0)
  (s.fs, match s.procs with
    | [⟨_, .done r⟩] => some r
    | _ => none)

end FileRace
end Asyncz
