import Verif.Model.Locks
/-!
# Model of several workers that process one shared store (/repo/asyncz/schedulers/base.py:1560-1641 under
`store.lock`, /repo/asyncz/stores/base.py:48-59)

Each worker is a process with its own scheduler; the store is shared (file, Redis, SQL, MongoDB) and all schedulers
have the same `lock_path`.  Every step below is atomic with respect to the others; steps of different workers
interleave freely.  API calls read a task from the store and write it back without taking the lock.
`run_task`, which hands over tasks without the lock as well, is not part of this model (see C39).
-/
namespace Asyncz
namespace Workers

variable {ι : Type} [DecidableEq ι]

/-- What a pass may compute from a task: the run times that it hands to the executor (`get_run_times` and
`_coalesce_run_times`, base.py:1600-1601) and the next run time after the last of them (base.py:1634-1636).  Relations,
since the trigger of a task may be replaced or draw jitter. -/
structure Env (ι : Type) where
  runs : ι → Int → Int → List Int → Prop
  next : ι → Int → Int → Option Int → Prop

/-- Where a call of `_process_tasks_of_store` is (base.py:1569-1641). -/
inductive Pass (ι : Type) where
  | idle
  /-- the tasks of `due_tasks` that are still to be processed, as they were read -/
  | running (now : Int) (todo : List (ι × Int))
  /-- the run times of the first task were handed to the executor, the task is not yet written back -/
  | submitted (now : Int) (id : ι) (last : Int) (todo : List (ι × Int))
  deriving DecidableEq

/-- An API call between reading the task and writing it back (base.py:677-682): the task, the next run time that was
read, and whether no run time of the task was handed over without being written back when it was read, and none was
handed over since. -/
structure Call (ι : Type) where
  id : ι
  read : Option Int
  fresh : Bool
  deriving DecidableEq

/-- `store`: the tasks (`none`: missing, `some none`: no next run time).  `log`: what was handed to executors, by any
worker.  `calls`: API calls under way.  (schedulers/base.py:1560-1641, 677-682) -/
structure St (ι : Type) where
  fs : Locks.File.St
  store : ι → Option (Option Int)
  pass : Nat → Pass ι
  log : List (ι × Int)
  calls : Nat → Option (Call ι)

/-- before any worker started (schedulers/base.py:1560: nothing was handed over yet) -/
def St.start (store : ι → Option (Option Int)) : St ι := ⟨.init, store, fun _ => .idle, [], fun _ => none⟩

/-- replaces the local state of one call of `_process_tasks_of_store` (base.py:1560) -/
def setPass (f : Nat → Pass ι) (i : Nat) (x : Pass ι) : Nat → Pass ι := fun j => if j = i then x else f j

/-- writes or removes one task of the store (base.py:682, 1638-1641) -/
def setStore (f : ι → Option (Option Int)) (i : ι) (x : Option (Option Int)) : ι → Option (Option Int) :=
  fun j => if j = i then x else f j

/-- the local state of one API call (base.py:677-682) -/
def setCall (f : Nat → Option (Call ι)) (i : Nat) (x : Option (Call ι)) : Nat → Option (Call ι) := fun j => if j = i then x else f j

/-- a hand-over happens: what API calls have read of the task is no longer up to date (base.py:1605) -/
def stale (f : Nat → Option (Call ι)) (id : ι) : Nat → Option (Call ι) :=
  fun j => (f j).map fun c => if c.id = id then { c with fresh := false } else c

/-- between `send_task` (base.py:1605) and `update_task`/`delete_task` (base.py:1638-1641) of this task -/
def Pass.midOf (id : ι) : Pass ι → Bool
  | .submitted _ x _ _ => decide (x = id)
  | _ => false

/-- between `send_task` (base.py:1605) and `update_task`/`delete_task` (base.py:1638-1641) of a task that still has a
next run time in the store -/
def Pass.mid (store : ι → Option (Option Int)) : Pass ι → Bool
  | .submitted _ id _ _ => ((store id).bind fun x => x).isSome
  | _ => false

/-- The labels of the steps below (base.py:1569-1641, 677-682). -/
inductive Act where
  | open (proc : Nat)
  | lock (fd : Nat)
  | begin (fd : Nat)
  | submit (fd : Nat)
  | refuse (fd : Nat)
  | drop (fd : Nat)
  | write (fd : Nat)
  | leave (fd : Nat) (raised mid : Bool)
  | crash (proc : Nat) (mid : Bool)
  | shutdown
  | read (call : Nat)
  /-- the task is written back with the next run time that was read -/
  | keep (call : Nat) (fresh : Bool)
  | pause (call : Nat)
  /-- a new next run time is written; `late`: it is later than all run times of the task handed over so far -/
  | at (call : Nat) (late : Bool)
  | delete
  | add (late : Bool)
  deriving DecidableEq

/-- the answer of `store.get_due_tasks(now)` (base.py:1577, stores/base.py `get_due_tasks`; C01, C07) -/
def IsDue (store : ι → Option (Option Int)) (now : Int) (l : List (ι × Int)) : Prop :=
  (l.map (·.1)).Nodup ∧ ∀ id n, (id, n) ∈ l ↔ store id = some (some n) ∧ n ≤ now

/-- later than all run times of the task that were handed over (base.py:1605) -/
def Late (log : List (ι × Int)) (id : ι) (m : Int) : Prop := ∀ t, (id, t) ∈ log → t < m

/-- The steps of the passes and API calls.  `mid`: an executor has got run times of a task that was not yet written
back.  (schedulers/base.py:1569-1641, 677-682) -/
inductive Step (E : Env ι) : Act → St ι → St ι → Prop
  /-- `store.lock.protected(blocking=False)` (base.py:1569) -/
  | open {s : St ι} {p : Nat} {fs' : Locks.File.St} (h : Locks.File.Step (.open p) s.fs fs') :
      Step E (.open p) s { s with fs := fs' }
  | lock {s : St ι} {i : Nat} {fs' : Locks.File.St} (h : Locks.File.Step (.lock i) s.fs fs') :
      Step E (.lock i) s { s with fs := fs' }
  /-- `store.get_due_tasks(now)`, only if the lock was obtained (base.py:1570-1577) -/
  | begin {s : St ι} {f : Locks.File.Fd} {now : Int} {l : List (ι × Int)} (hf : f ∈ s.fs.fds) (hp : f.phase = .holding)
      (hi : s.pass f.id = .idle) (hl : IsDue s.store now l) :
      Step E (.begin f.id) s { s with pass := setPass s.pass f.id (.running now l) }
  /-- `executor.send_task(task, run_times)` (base.py:1603-1605) -/
  | submit {s : St ι} {i : Nat} {now n last : Int} {id : ι} {l : List (ι × Int)} {r : List Int}
      (h : s.pass i = .running now ((id, n) :: l)) (hr : E.runs id n now (r ++ [last])) :
      Step E (.submit i) s { s with pass := setPass s.pass i (.submitted now id last l)
                                    log := s.log ++ (r ++ [last]).map fun t => (id, t)
                                    calls := stale s.calls id }
  /-- the executor refused the task (`MaximumInstancesError` or any exception, base.py:1606-1622): nothing is handed
  over, but the next run time is computed and written as after a submission -/
  | refuse {s : St ι} {i : Nat} {now n last : Int} {id : ι} {l : List (ι × Int)} {r : List Int}
      (h : s.pass i = .running now ((id, n) :: l)) (hr : E.runs id n now (r ++ [last])) :
      Step E (.refuse i) s { s with pass := setPass s.pass i (.submitted now id last l) }
  /-- the executor of the task is unknown: the task is removed (base.py:1589-1597) -/
  | drop {s : St ι} {i : Nat} {now n : Int} {id : ι} {l : List (ι × Int)}
      (h : s.pass i = .running now ((id, n) :: l)) (hx : s.store id ≠ none) :
      Step E (.drop i) s { s with pass := setPass s.pass i (.running now l), store := setStore s.store id none }
  /-- `store.update_task(task)` or `delete_task` (base.py:1634-1641); they raise if the task is missing -/
  | write {s : St ι} {i : Nat} {now last : Int} {id : ι} {l : List (ι × Int)} {m : Option Int}
      (h : s.pass i = .submitted now id last l) (hx : s.store id ≠ none) (hm : E.next id last now m) :
      Step E (.write i) s { s with pass := setPass s.pass i (.running now l)
                                   store := setStore s.store id (m.map some) }
  /-- the section is left at its end, or by an exception at any point -/
  | leave {s : St ι} {i : Nat} {raised mid : Bool} {fs' : Locks.File.St} (h : Locks.File.Step (.leave i raised) s.fs fs')
      (hr : raised = false → s.pass i = .idle ∨ ∃ now, s.pass i = .running now [])
      (hm : (s.pass i).mid s.store = mid) :
      Step E (.leave i raised mid) s { s with fs := fs', pass := setPass s.pass i .idle }
  /-- a worker dies -/
  | crash {s : St ι} {p : Nat} {mid : Bool} {fs' : Locks.File.St} (h : Locks.File.Step (.crash p) s.fs fs')
      (hm : ((s.fs.fds.filter fun f => f.proc == p).any fun f => (s.pass f.id).mid s.store) = mid) :
      Step E (.crash p mid) s
        { s with fs := fs', pass := fun i => if (s.fs.fds.filter fun f => f.proc == p).any (fun f => f.id == i) then .idle else s.pass i }
  /-- a worker shuts its store down (base.py:321-322, stores/base.py:89-96) -/
  | shutdown {s : St ι} {fs' : Locks.File.St} (h : Locks.File.Step .shutdown s.fs fs') :
      Step E .shutdown s { s with fs := fs' }
  /-- an API call reads the task (base.py:678; pause, resume and reschedule call `update_task`, base.py:710, 720, 740) -/
  | read {s : St ι} {k : Nat} {id : ι} {r : Option Int} {b : Bool} (h : s.store id = some r)
      (hb : b = true ↔ ∀ i, (s.pass i).midOf id = false) :
      Step E (.read k) s { s with calls := setCall s.calls k (some ⟨id, r, b⟩) }
  /-- ... and writes it back with the same next run time (base.py:682); `update_task` of a store raises if the task is
  missing -/
  | keep {s : St ι} {k : Nat} {c : Call ι} (h : s.calls k = some c) (hx : s.store c.id ≠ none) :
      Step E (.keep k c.fresh) s { s with store := setStore s.store c.id (some c.read), calls := setCall s.calls k none }
  /-- ... or without one (base.py:712-720) -/
  | pause {s : St ι} {k : Nat} {c : Call ι} (h : s.calls k = some c) (hx : s.store c.id ≠ none) :
      Step E (.pause k) s { s with store := setStore s.store c.id (some none), calls := setCall s.calls k none }
  /-- ... or with another one (base.py:690-710, 722-740) -/
  | at {s : St ι} {k : Nat} {c : Call ι} {m : Int} {late : Bool} (h : s.calls k = some c) (hx : s.store c.id ≠ none)
      (hl : late = true ↔ Late s.log c.id m) :
      Step E (.at k late) s { s with store := setStore s.store c.id (some (some m)), calls := setCall s.calls k none }
  /-- `delete_task` (base.py:1175-1206) -/
  | delete {s : St ι} {id : ι} : Step E .delete s { s with store := setStore s.store id none }
  /-- `add_task` of a new id, or with `replace_existing` (base.py:1426-1465); without it a present id is refused and
  nothing changes -/
  | add {s : St ι} {id : ι} {m : Option Int} {late : Bool} (hl : late = true ↔ ∀ n, m = some n → Late s.log id n) :
      Step E (.add late) s { s with store := setStore s.store id (some m) }

/-- the states reached by interleavings of steps whose labels satisfy `P` (base.py:1560-1641) -/
inductive Reach (E : Env ι) (P : Act → Prop) (s0 : St ι) : St ι → Prop
  | init : Reach E P s0 s0
  | step {s s' : St ι} {a : Act} (hs : Reach E P s0 s) (ha : P a) (h : Step E a s s') : Reach E P s0 s'

end Workers
end Asyncz
