/-!
# Log messages of the worker processes (/repo/asyncz/executors/process_pool.py)

The pipe between the worker processes of a `ProcessPoolExecutor` and the thread that passes their log calls to the executor's
logger.
-/
namespace Asyncz
namespace PoolLog

/-- A log call, as sent through the pipe (executors/process_pool.py:16-22): the name of the logger's method, the arguments (a
number stands for them), in how many pieces after the first one the operating system writes it (`multiprocessing.Connection`
writes more than a page with several calls, between which others may write), and whether the logger's method raises. -/
structure Msg where
  name : String
  args : Nat
  extra : Nat
  raises : Bool
  deriving DecidableEq, Repr

/-- a piece of a message of process `src` (library: `Connection.send`, executors/process_pool.py:22) -/
structure Chunk where
  src : Nat
  msg : Msg
  idx : Nat
  deriving DecidableEq, Repr

/-- the pieces of a message (library: `Connection.send`, executors/process_pool.py:22) -/
def chunks (src : Nat) (m : Msg) : List Chunk := (List.range (m.extra + 1)).map fun i => ⟨src, m, i⟩

/-- `fn_name.startswith("_")` is false (executors/process_pool.py:31,46) -/
def Msg.isPublic (m : Msg) : Bool := !m.name.toList.head?.elim false (· = '_')

/-- The receiving thread: not made, running, ended by `EOFError`, ended by another exception (executors/process_pool.py:36-50,
71-77). -/
inductive Recv where
  | none
  | running
  | over
  | crashed
  deriving DecidableEq, Repr

/-- The state: `mainOpen`: the executor's end for sending is not closed; `workers`: the processes that hold the pipe, each with
the pieces it has still to write; the content of the pipe; the thread; `sent`: the calls made in the processes, oldest first;
`calls`: the calls made on the executor's logger (executors/process_pool.py:16-81). -/
structure St where
  mainOpen : Bool
  workers : List (Nat × List Chunk)
  pipe : List Chunk
  recv : Recv
  sent : List (Nat × Msg)
  calls : List (Nat × Msg)
  deriving DecidableEq, Repr

/-- a new executor (executors/process_pool.py:63-69) -/
def init : St := ⟨true, [], [], .none, [], []⟩

/-- What happens (executors/process_pool.py:16-81). -/
inductive Op where
  /-- `ProcessPoolExecutor.start` -/
  | start
  /-- the pool makes a worker process -/
  | spawn (w : Nat)
  /-- a task's run in process `w` calls a method of the logger it was given -/
  | log (w : Nat) (m : Msg)
  /-- process `w` writes the next piece -/
  | write (w : Nat)
  /-- process `w` ends, in an orderly way -/
  | exit (w : Nat)
  /-- process `w` is killed -/
  | die (w : Nat)
  /-- the receiving thread goes on -/
  | recv
  /-- `shutdown` closes its end of the pipe and waits for the thread -/
  | close
  deriving DecidableEq, Repr

/-- the pieces process `w` has still to write, if there is such a process (executors/process_pool.py:16-22) -/
def St.rest (s : St) (w : Nat) : Option (List Chunk) := (s.workers.find? (·.1 = w)).map (·.2)

/-- changes them (executors/process_pool.py:16-22) -/
def St.setRest (s : St) (w : Nat) (cs : List Chunk) : St :=
  { s with workers := s.workers.map fun p => if p.1 = w then (w, cs) else p }

/-- One round of the receiving thread (executors/process_pool.py:43-50).  If the pipe is empty it waits, or, if nobody can write
any more, ends; it waits for the missing pieces of a message; what it reads may be garbled by other writers (then reading
raises; simplification: always). -/
def receive (s : St) : St :=
  match s.pipe with
  | [] => if s.mainOpen = false ∧ s.workers = [] then { s with recv := .over } else s
  | c :: _ =>
    if s.pipe.length < c.msg.extra + 1 then
      if s.mainOpen = false ∧ s.workers = [] then { s with recv := .crashed } else s
    else
      let s' := { s with pipe := s.pipe.drop (c.msg.extra + 1) }
      if s.pipe.take (c.msg.extra + 1) = chunks c.src c.msg then
        if c.msg.isPublic = false then s'
        else if c.msg.raises then { s' with calls := s.calls ++ [(c.src, c.msg)], recv := .crashed }
        else { s' with calls := s.calls ++ [(c.src, c.msg)] }
      else { s' with recv := .crashed }

/-- One operation; one that is not possible changes nothing (executors/process_pool.py:16-81).  `cap`: how many pieces the pipe
holds; a writer waits if it is full.  Processes are made only before the shutdown. -/
def step (cap : Nat) (s : St) : Op → St
  | .start => if s.recv = .none then { s with recv := .running } else s
  | .spawn w => if s.mainOpen = true ∧ s.rest w = none then { s with workers := s.workers ++ [(w, [])] } else s
  | .log w m =>
    match s.rest w with
    | some [] => { s.setRest w (chunks w m) with sent := s.sent ++ [(w, m)] }
    | _ => s
  | .write w =>
    match s.rest w with
    | some (c :: cs) => if s.pipe.length < cap then { s.setRest w cs with pipe := s.pipe ++ [c] } else s
    | _ => s
  | .exit w =>
    match s.rest w with
    | some [] => { s with workers := s.workers.filter (·.1 ≠ w) }
    | _ => s
  | .die w => { s with workers := s.workers.filter (·.1 ≠ w) }
  | .recv => if s.recv = .running then receive s else s
  | .close => { s with mainOpen := false }

/-- a history (executors/process_pool.py:16-81) -/
def run (cap : Nat) (ops : List Op) : St := ops.foldl (step cap) init

/-- `shutdown` has returned (executors/process_pool.py:78-81): its end is closed and the thread has ended. -/
def St.shutDown (s : St) : Prop := s.mainOpen = false ∧ (s.recv = .over ∨ s.recv = .crashed)

end PoolLog
end Asyncz
