import Verif.Model.SchedApi
import Verif.Model.Listing
import Verif.Model.Sort
/-!
# What a scheduler tells about itself (`get_scheduler_info`, `get_scheduler_instance_infos`, `asyncz doctor`)
-/
namespace Asyncz
namespace Sched
variable {σ τ φ : Type}

/-- A scheduler with its attribute `started_at` (schedulers/base.py:116, 1253). -/
structure Timed (σ τ φ : Type) where
  s : State σ τ φ
  startedAt : Option Int

/-- The constructor: not started (schedulers/base.py:116, 1253) -/
def Timed.init : Timed σ τ φ := ⟨State.init, none⟩

/-- One call.  `started_at` is set where `start` sets the state (base.py:227-230) and cleared where `shutdown` does
(base.py:278-280); nothing else writes it. -/
def execTimed (O : StoreOps σ (Body τ φ)) (c : Cfg τ) (e : Env τ) (fuel : Nat) (k : Call σ τ φ) (x : Timed σ τ φ) :
    Option (Timed σ τ φ) :=
  match k with
  | .start p => match start O c e p x.s with
    | (s', .ok true) => some ⟨s', some e.now⟩
    | (s', _) => some ⟨s', x.startedAt⟩
  | .shutdown => match shutdown O c x.s with
    | (s', .ok true) => some ⟨s', none⟩
    | (s', _) => some ⟨s', x.startedAt⟩
  | k => (exec O c e fuel k x.s).map fun s' => ⟨s', x.startedAt⟩

/-- `SchedulerInfo` (schedulers/inspection.py:14-37), without identity, time zone, `submitted_task_count` and the settings. -/
structure Info where
  state : Mode
  running : Bool
  startedAt : Option Int
  uptime : Option Int
  executors : List String
  stores : List String
  tasks : Nat
  scheduled : Nat
  paused : Nat
  pending : Nat
  deriving DecidableEq, Repr

/-- the `schedule_state` of a task (tasks/types.py:47-65) -/
def stateOf (t : T τ φ) : Listing.SState := Listing.scheduleState t.body.pending t.nrt

/-- `get_scheduler_info` at the time `now` (schedulers/base.py:1085-1132, `running` 330-335). -/
def infoAt (O : StoreOps σ (Body τ φ)) (now : Int) (x : Timed σ τ φ) : Info :=
  let ts := getTasks O x.s none
  let at_ := if x.s.mode = .stopped then none else x.startedAt
  { state := x.s.mode
    running := decide (x.s.mode ≠ .stopped)
    startedAt := at_
    uptime := at_.map fun t => max 0 (now - t)
    executors := sortBy (fun a b => decide (a ≤ b)) x.s.executors.keys
    stores := sortBy (fun a b => decide (a ≤ b)) x.s.stores.keys
    tasks := ts.length
    scheduled := ts.countP fun t => decide (stateOf t = .scheduled)
    paused := ts.countP fun t => decide (stateOf t = .paused)
    pending := ts.countP fun t => decide (stateOf t = .pending) }

/-- `active` and `stale` of `get_scheduler_instance_infos` (schedulers/base.py:1134-1175) -/
def activeStale (i : Info) : Bool × Bool :=
  let stale := !i.running
  (i.running && !stale, stale)

/-- the status of a check, and of the scheduler as a whole (cli/commands/doctor.py:16-25) -/
inductive Health where
  | ok | warning | failed
  deriving DecidableEq, Repr

/-- `_build_checks` (cli/commands/doctor.py:28-83), without the messages -/
def checks (i : Info) : List (String × Health) :=
  [("scheduler_running", if i.running then .ok else .warning),
   ("stores_registered", if i.stores ≠ [] then .ok else .failed),
   ("executors_registered", if i.executors ≠ [] then .ok else .failed),
   ("task_inventory", .ok)] ++
  (if i.running ∧ i.startedAt ≠ none ∧ i.uptime ≠ none then [("lifecycle_clock", .ok)]
   else if i.running then [("lifecycle_clock", .failed)]
   else [("lifecycle_clock", .warning)])

/-- `_health_from_checks` (cli/commands/doctor.py:20-25) -/
def healthOf (cs : List (String × Health)) : Health :=
  if cs.any (fun p => p.2 = .failed) then .failed
  else if cs.any (fun p => p.2 = .warning) then .warning
  else .ok

/-- `_build_doctor_payload` (cli/commands/doctor.py:86-97): health and readiness -/
def doctor (i : Info) : Health × Bool :=
  let h := healthOf (checks i)
  (h, i.running && h == .ok)

end Sched
end Asyncz
