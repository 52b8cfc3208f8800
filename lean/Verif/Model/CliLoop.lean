/-!
# The event loop of a one-shot command (/repo/asyncz/cli/commands/run.py, schedulers/asyncio.py, executors/asyncio.py)

What becomes of the jobs that a command submits: the loop runs only until `main` is done.
-/
namespace Asyncz
namespace CliLoop

/-- A submitted job: a plain function, or a coroutine function that suspends so many times before it ends
(executors/asyncio.py:49-57).  `id` numbers the submissions. -/
structure Job where
  id : Nat
  suspends : Option Nat
  deriving DecidableEq, Repr

/-- What is in the queue of the loop: the wake-up, which submits what is due (schedulers/asyncio.py:93-97), a step of a
coroutine (executors/asyncio.py:53), the thread's notice that a function has ended (executors/asyncio.py:55-57), the completion callback
of a job (executors/asyncio.py:39-47), `_shutdown` (schedulers/asyncio.py:59-68), and the callback of
`run_until_complete` that stops the loop (cli/commands/run.py:63). -/
inductive Item where
  | wakeup (due : List Job)
  | step (id left : Nat)
  | settle (id : Nat)
  | callback (id : Nat)
  | shutdown
  | stop
  deriving DecidableEq, Repr

/-- `ready`: the queue; `stopping`: the loop ends after this round; `pending`: the futures of the executor
(executors/asyncio.py:27,60); `cancelled`: the futures that have been cancelled; `began`, `ended`, `reported`: the jobs whose
function was entered, has ended, whose callback was called. -/
structure Loop where
  ready : List Item
  stopping : Bool
  pending : List Nat
  cancelled : List Nat
  began : List Nat
  ended : List Nat
  reported : List Nat
  deriving DecidableEq, Repr

/-- `do_send_task` (executors/asyncio.py:34-61).  A function is given to a thread, which runs it to its end: the interpreter
waits for the threads of a pool before it exits; its notice to the loop is queued at the earliest here. -/
def submit (l : Loop) (j : Job) : Loop :=
  match j.suspends with
  | none => { l with began := l.began ++ [j.id], ended := l.ended ++ [j.id], ready := l.ready ++ [.settle j.id], pending := l.pending ++ [j.id] }
  | some k => { l with ready := l.ready ++ [.step j.id k], pending := l.pending ++ [j.id] }

/-- One item of the queue.  A coroutine whose future has been cancelled gets `CancelledError` at its next step; one that suspends is queued
again at the earliest at once.  (schedulers/asyncio.py:59-68,93-97, executors/asyncio.py:28-61) -/
def runItem (l : Loop) : Item → Loop
  | .wakeup due => due.foldl submit l
  | .step i k =>
    if i ∈ l.cancelled then { l with ready := l.ready ++ [.callback i] }
    else match k with
      | 0 => { l with began := l.began ++ [i], ended := l.ended ++ [i], ready := l.ready ++ [.callback i] }
      | k + 1 => { l with began := l.began ++ [i], ready := l.ready ++ [.step i k] }
  | .settle i => if i ∈ l.cancelled then l else { l with ready := l.ready ++ [.callback i] }
  | .callback i => { l with reported := l.reported ++ [i], pending := l.pending.erase i }
  | .shutdown => { l with cancelled := l.cancelled ++ l.pending, pending := [] }
  | .stop => { l with stopping := true }

/-- One round of the loop: what is in the queue now; what is queued meanwhile waits for the next round (`_run_once` of
asyncio, used by cli/commands/run.py:63). -/
def once (l : Loop) : Loop := l.ready.foldl runItem { l with ready := [] }

/-- The loop runs until it is told to stop (`run_forever` of asyncio, used by cli/commands/run.py:63); `none`: not within
so many rounds. -/
def rounds : Nat → Loop → Option Loop
  | 0, _ => none
  | n + 1, l => let l' := once l; if l'.stopping then some l' else rounds n l'

/-- The queue when `main` has ended: the wake-up of `start`, the job that the command submits itself, if any (`asyncz run`),
`_shutdown`, and the callback of `run_until_complete` (cli/commands/run.py:46-63, schedulers/base.py:235, executors/asyncio.py:53).
`main` never suspends.  A function that `run` submits is in its thread already. -/
def afterMain (due : List Job) (own : Option Job) : Loop :=
  let l0 : Loop := ⟨[.wakeup due], false, [], [], [], [], []⟩
  let l1 := match own with | none => l0 | some j => submit l0 j
  { l1 with ready := l1.ready ++ [.shutdown, .stop] }

/-- The command ends (cli/commands/run.py:63). -/
def command (n : Nat) (due : List Job) (own : Option Job) : Option Loop := rounds n (afterMain due own)

end CliLoop
end Asyncz
