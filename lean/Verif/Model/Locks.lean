/-!
# Model of the locks around stores and passes (/repo/asyncz/locks.py, /repo/asyncz/file_locking.py)

A section is the body of `with lock.protected(...) as locked`; it is entered also if the lock was not obtained
(then `locked` is false).
-/
namespace Asyncz
namespace Locks

/-! ## Locks between threads (locks.py:24-46) -/

/-- The two classes of locks.py:24-46. -/
inductive Kind where
  | lock   -- `LockProtected`
  | rlock  -- `RLockProtected`
  deriving DecidableEq, Repr

/-- `owner`, `count`: the state of the `threading` lock.  `inside t`: the open sections of thread `t`, innermost
first, with the value of `locked`.  (locks.py:24-41) -/
structure St where
  owner : Option Nat
  count : Nat
  inside : Nat → List Bool

/-- A new lock (locks.py:25-29). -/
def St.init : St := ⟨none, 0, fun _ => []⟩

/-- Thread `t` enters a section (locks.py:38-39). -/
def push (f : Nat → List Bool) (t : Nat) (b : Bool) : Nat → List Bool := fun u => if u = t then b :: f u else f u

/-- Thread `t` leaves its innermost section (locks.py:39-41). -/
def pop (f : Nat → List Bool) (t : Nat) : Nat → List Bool := fun u => if u = t then (f u).tail else f u

/-- `acquire` of a `Lock` or an `RLock` succeeds.  (locks.py:38) -/
def free (k : Kind) (s : St) (t : Nat) : Bool :=
  match k with
  | .lock => s.owner.isNone
  | .rlock => s.owner.isNone || s.owner == some t

/-- `release()`.  (locks.py:41) -/
def release (s : St) : St :=
  { s with owner := if s.count ≤ 1 then none else s.owner, count := s.count - 1 }

/-- The labels of the steps (locks.py:34-41). -/
inductive Act where
  | enter (t : Nat)
  | refused (t : Nat)
  | leave (t : Nat) (raised : Bool)

/-- `protected` (locks.py:34-41).  `refused`: `acquire` returned false (not blocking, or the timeout passed).  An
exception in the body is raised at the `yield`, so that the statements behind it are not executed. -/
inductive Step (k : Kind) : Act → St → St → Prop
  | enter {s : St} {t : Nat} (h : free k s t = true) :
      Step k (.enter t) s ⟨some t, s.count + 1, push s.inside t true⟩
  | refused {s : St} {t : Nat} (h : free k s t = false) :
      Step k (.refused t) s { s with inside := push s.inside t false }
  | leaveFalse {s : St} {t : Nat} {raised : Bool} {l : List Bool} (h : s.inside t = false :: l) :
      Step k (.leave t raised) s { s with inside := pop s.inside t }
  | leaveTrue {s : St} {t : Nat} {l : List Bool} (h : s.inside t = true :: l) :
      Step k (.leave t false) s { release s with inside := pop s.inside t }
  | leaveRaised {s : St} {t : Nat} {l : List Bool} (h : s.inside t = true :: l) :
      Step k (.leave t true) s { s with inside := pop s.inside t }

/-- The states reached from `s0` by actions that satisfy `P`.  (locks.py:34-41) -/
inductive Reach (k : Kind) (P : Act → Prop) (s0 : St) : St → Prop
  | init : Reach k P s0 s0
  | step {s s' : St} {a : Act} (hs : Reach k P s0 s) (ha : P a) (h : Step k a s s') : Reach k P s0 s'

/-! ## File locks between processes (locks.py:49-79, file_locking.py:96-116)

POSIX: `flock` locks belong to open file descriptions and are kept per inode. -/
namespace File

/-- Where a call of `protected` is (locks.py:60-73). -/
inductive Phase where
  | opened | holding | refused
  deriving DecidableEq, Repr

/-- An open file: made by `open` in process `proc`.  (locks.py:64) -/
structure Fd where
  id : Nat
  proc : Nat
  inode : Nat
  phase : Phase
  deriving DecidableEq, Repr

/-- `path`: the inode that the name denotes.  `locks`: the description that holds the lock of an inode.
(locks.py:49-77, file_locking.py) -/
structure St where
  path : Option Nat
  nextInode : Nat
  nextFd : Nat
  fds : List Fd
  locks : Nat → Option Nat

/-- No lock file yet (locks.py:52-58). -/
def St.init : St := ⟨none, 0, 0, [], fun _ => none⟩

/-- The kernel notes or drops the lock of an inode (file_locking.py). -/
def setLock (f : Nat → Option Nat) (i : Nat) (x : Option Nat) : Nat → Option Nat := fun j => if j = i then x else f j

/-- The labels of the steps (locks.py:60-77). -/
inductive Act where
  | open (proc : Nat)
  | lock (id : Nat)
  | leave (id : Nat) (raised : Bool)
  | crash (proc : Nat)
  | shutdown

/-- The steps of `protected` (locks.py:61-74) and `shutdown` (locks.py:76-78), and the death of a process.
`open(path, "w+")` creates the file if there is none.  `lock` returns false if another description has the lock and
`LOCK_NB` is set (file_locking.py:107-112); without that flag it waits.  Leaving the section, also by an exception,
unlocks and closes. -/
inductive Step : Act → St → St → Prop
  | openNew {s : St} {p : Nat} (h : s.path = none) :
      Step (.open p) s ⟨some s.nextInode, s.nextInode + 1, s.nextFd + 1,
        s.fds ++ [⟨s.nextFd, p, s.nextInode, .opened⟩], s.locks⟩
  | openOld {s : St} {p i : Nat} (h : s.path = some i) :
      Step (.open p) s { s with nextFd := s.nextFd + 1, fds := s.fds ++ [⟨s.nextFd, p, i, .opened⟩] }
  | lock {s : St} {pre post : List Fd} {f : Fd} (hf : s.fds = pre ++ f :: post) (hp : f.phase = .opened)
      (h : s.locks f.inode = none) :
      Step (.lock f.id) s { s with fds := pre ++ { f with phase := .holding } :: post
                                   locks := setLock s.locks f.inode (some f.id) }
  | refuse {s : St} {pre post : List Fd} {f : Fd} {g : Nat} (hf : s.fds = pre ++ f :: post) (hp : f.phase = .opened)
      (h : s.locks f.inode = some g) :
      Step (.lock f.id) s { s with fds := pre ++ { f with phase := .refused } :: post }
  | leaveLocked {s : St} {pre post : List Fd} {f : Fd} {raised : Bool} (hf : s.fds = pre ++ f :: post)
      (hp : f.phase = .holding) :
      Step (.leave f.id raised) s { s with fds := pre ++ post, locks := setLock s.locks f.inode none }
  | leaveRefused {s : St} {pre post : List Fd} {f : Fd} {raised : Bool} (hf : s.fds = pre ++ f :: post)
      (hp : f.phase = .refused) :
      Step (.leave f.id raised) s { s with fds := pre ++ post }
  | crash {s : St} {p : Nat} :
      Step (.crash p) s { s with
        fds := s.fds.filter fun f => decide (f.proc ≠ p)
        locks := fun i => (s.locks i).filter fun g => (s.fds.filter fun f => decide (f.proc ≠ p)).any fun f => f.id == g }
  | shutdown {s : St} : Step .shutdown s { s with path := none }

/-- What any interleaving of the steps leads to (locks.py:60-77). -/
inductive Reach (P : Act → Prop) : St → Prop
  | init : Reach P .init
  | step {s s' : St} {a : Act} (hs : Reach P s) (ha : P a) (h : Step a s s') : Reach P s'

end File
end Locks
end Asyncz
