/-!
# Model of event listeners (/repo/asyncz/schedulers/base.py:463-489, 1394-1412, /repo/asyncz/events)
-/
namespace Asyncz
namespace Listen

/-- the bit of an event code, in the order of events/constants.py:1-17 -/
inductive Kind where
  | schedulerStarted | schedulerShutdown | schedulerPaused | schedulerResumed | executorAdded | executorRemoved
  | storeAdded | storeRemoved | allTasksRemoved | taskAdded | taskRemoved | taskModified | taskExecuted | taskError
  | taskMissed | taskSubmitted | taskMaxInstances
  deriving DecidableEq, Repr

/-- events/constants.py:1-17 -/
def Kind.code : Kind → Nat
  | .schedulerStarted => 1
  | .schedulerShutdown => 2
  | .schedulerPaused => 4
  | .schedulerResumed => 8
  | .executorAdded => 16
  | .executorRemoved => 32
  | .storeAdded => 64
  | .storeRemoved => 128
  | .allTasksRemoved => 256
  | .taskAdded => 512
  | .taskRemoved => 1024
  | .taskModified => 2048
  | .taskExecuted => 4096
  | .taskError => 8192
  | .taskMissed => 16384
  | .taskSubmitted => 32768
  | .taskMaxInstances => 65536

/-- All kinds (events/constants.py:1-17). -/
def Kind.all : List Kind :=
  [.schedulerStarted, .schedulerShutdown, .schedulerPaused, .schedulerResumed, .executorAdded, .executorRemoved,
    .storeAdded, .storeRemoved, .allTasksRemoved, .taskAdded, .taskRemoved, .taskModified, .taskExecuted, .taskError,
    .taskMissed, .taskSubmitted, .taskMaxInstances]

/-- a mask for several kinds: `A | B | ...`.  (events/constants.py:19-38) -/
def maskOf (ks : List Kind) : Nat := ks.foldl (fun m k => m ||| k.code) 0

/-- `ALL_EVENTS` (events/constants.py:19-38) -/
def allEvents : Nat := maskOf Kind.all

/-- An event (events/base.py): its kind, whether it is a `TaskEvent`, the identity it carries, and the rest. -/
structure Event (π : Type) where
  kind : Kind
  isTask : Bool
  identity : Option String
  payload : π
  deriving DecidableEq, Repr

/-- `event.scheduler_identity = self.identity or None` for a task event without one (base.py:1401-1402) -/
def stamp {π : Type} (self : String) (e : Event π) : Event π :=
  if e.isTask = true ∧ e.identity = none then { e with identity := if self = "" then none else some self } else e

variable {κ : Type} [DecidableEq κ] {π : Type}

/-- the registered listeners: callback and mask.  (schedulers/base.py:111,463-489) -/
abbrev Ls (κ : Type) := List (κ × Nat)

/-- `add_listener` (base.py:463-477).  Masks are non-negative integers; a `str` mask, which the annotation
allows, is not modelled (`event.code & mask` would raise `TypeError`). -/
def add (ls : Ls κ) (c : κ) (mask : Nat) : Ls κ := ls ++ [(c, mask)]

/-- `remove_listener` (base.py:479-488): the first registration of the callback is deleted. -/
def remove : Ls κ → κ → Ls κ × Bool
  | [], _ => ([], false)
  | (c', m) :: rest, c =>
    if c = c' then (rest, true)
    else let r := remove rest c; ((c', m) :: r.1, r.2)

/-- What happens while a callback runs: the list of listeners may be changed in any way (by the callback,
which may also dispatch events itself, or by another thread), and it may raise.  (schedulers/base.py:1404-1412) -/
structure Behaviour (κ π : Type) where
  effect : κ → Event π → Ls κ → Ls κ
  raises : κ → Event π → Ls κ → Bool

/-- The loop of `dispatch_event` (base.py:1407-1412) over the copied listeners; `ls` are the registered
listeners at this moment.  Returns the callbacks called, in order, and the registered listeners afterwards.
`raises` has no influence: `except BaseException` logs. -/
def loop (b : Behaviour κ π) (e : Event π) : Ls κ → Ls κ → List (κ × Event π) × Ls κ
  | [], ls => ([], ls)
  | (c, m) :: rest, ls =>
    if e.kind.code &&& m ≠ 0 then
      let ls' := b.effect c e ls
      match b.raises c e ls with
      | true => let r := loop b e rest ls'; ((c, e) :: r.1, r.2)
      | false => let r := loop b e rest ls'; ((c, e) :: r.1, r.2)
    else loop b e rest ls

/-- `dispatch_event` (base.py:1394-1412): the calls made and the listeners registered afterwards. -/
def dispatch (b : Behaviour κ π) (self : String) (e : Event π) (ls : Ls κ) : List (κ × Event π) × Ls κ :=
  loop b (stamp self e) ls ls

/-- What a user does, one after the other.  (schedulers/base.py:463-489,1394) -/
inductive Op (κ π : Type) where
  | add (c : κ) (mask : Nat)
  | remove (c : κ)
  | dispatch (e : Event π)

/-- A history: for each dispatch the calls it made.  (schedulers/base.py:463-489,1394-1412) -/
def run (b : Behaviour κ π) (self : String) : Ls κ → List (Op κ π) → List (List (κ × Event π)) × Ls κ
  | ls, [] => ([], ls)
  | ls, .add c m :: ops => run b self (add ls c m) ops
  | ls, .remove c :: ops => run b self (remove ls c).1 ops
  | ls, .dispatch e :: ops =>
    let r := dispatch b self e ls
    let s := run b self r.2 ops
    (r.1 :: s.1, s.2)

end Listen
end Asyncz
