import Verif.Model.Sort
/-!
# Model of task listings (/repo/asyncz/schedulers/base.py:922-1025, /repo/asyncz/tasks/types.py:137-180)
-/
namespace Asyncz
namespace Listing

/-- Strings (schedulers/base.py:959-1014). -/
abbrev Text := List Char

/-- `TaskScheduleState` (enums.py:15-35) -/
inductive SState where
  | pending | paused | scheduled
  deriving DecidableEq, Repr

/-- The value of the enum member (enums.py:15-35). -/
def SState.value : SState → Text
  | .pending => "pending".toList
  | .paused => "paused".toList
  | .scheduled => "scheduled".toList

/-- The fields of `TaskInfo` (tasks/inspection.py:30-48) that listings use; `rest` stands for the others.
`nextRun` is an instant in microseconds. -/
structure Info (ρ : Type) where
  id : Option Text
  name : Option Text
  callableName : Option Text
  callableRef : Option Text
  triggerAlias : Option Text
  triggerName : Option Text
  triggerDesc : Option Text
  executor : Option Text
  store : Option Text
  state : SState
  nextRun : Option Int
  rest : ρ
  deriving DecidableEq, Repr

/-- `schedule_state` (tasks/types.py:47-65) of a task with the flag `pending` and that next run time -/
def scheduleState (pending : Bool) (nextRun : Option Int) : SState :=
  if pending then .pending else if nextRun.isNone then .paused else .scheduled

/-- the Python string methods used (`str.lower`, `str.strip`); Unicode tables are not modelled.
(schedulers/base.py:959,970,979) -/
structure Str where
  lower : Text → Text
  strip : Text → Text

/-- `x or ""` for an optional string.  (schedulers/base.py:974-1014) -/
def orEmpty (x : Option Text) : Text := x.getD []

/-- `needle in hay`.  (schedulers/base.py:983-991) -/
def isIn (needle : Text) : Text → Bool
  | [] => needle.isPrefixOf []
  | c :: hay => needle.isPrefixOf (c :: hay) || isIn needle hay

/-- the `schedule_state` argument.  (schedulers/base.py:954-960) -/
inductive StateArg where
  | absent
  | member (s : SState)
  | text (t : Text)

/-- `TaskScheduleState(str(schedule_state).strip().lower())` (base.py:959-965); `none`: `ValueError` -/
def resolveState (S : Str) : StateArg → Option (Option SState)
  | .absent => some none
  | .member s => some (some s)
  | .text t =>
    let v := S.lower (S.strip t)
    if v = SState.value .pending then some (some .pending)
    else if v = SState.value .paused then some (some .paused)
    else if v = SState.value .scheduled then some (some .scheduled)
    else none

variable {ρ : Type}

/-- base.py:968-969 -/
def filterState (st : Option SState) (l : List (Info ρ)) : List (Info ρ) :=
  match st with
  | none => l
  | some s => l.filter fun i => decide (i.state = s)

/-- base.py:971-972; an absent or empty alias does not filter -/
def filterExecutor (ex : Option Text) (l : List (Info ρ)) : List (Info ρ) :=
  if orEmpty ex = [] then l else l.filter fun i => decide (i.executor = ex)

/-- base.py:974-981 -/
def filterTrigger (S : Str) (tr : Option Text) (l : List (Info ρ)) : List (Info ρ) :=
  if orEmpty tr = [] then l
  else
    let v := S.lower (S.strip (orEmpty tr))
    l.filter fun i => decide (S.lower (orEmpty i.triggerAlias) = v) || decide (S.lower (orEmpty i.triggerName) = v)

/-- base.py:983-998 -/
def filterQuery (S : Str) (q : Option Text) (l : List (Info ρ)) : List (Info ρ) :=
  if orEmpty q = [] then l
  else
    let needle := S.lower (S.strip (orEmpty q))
    l.filter fun i =>
      isIn needle (S.lower (orEmpty i.id)) || isIn needle (S.lower (orEmpty i.name)) ||
      isIn needle (S.lower (orEmpty i.callableName)) || isIn needle (S.lower (orEmpty i.callableRef)) ||
      isIn needle (S.lower (orEmpty i.triggerAlias)) || isIn needle (S.lower (orEmpty i.triggerName)) ||
      isIn needle (S.lower (orEmpty i.triggerDesc)) || isIn needle (S.lower (orEmpty i.executor)) ||
      isIn needle (S.lower (orEmpty i.store)) || isIn needle i.state.value

/-- a component of a sort key.  (schedulers/base.py:995-1016) -/
inductive Part where
  | flag (b : Bool)
  | time (u : Int)
  | text (t : Text)
  deriving DecidableEq, Repr

/-- comparison of strings by code points.  (schedulers/base.py:1025) -/
def textLe : Text → Text → Bool
  | [], _ => true
  | _ :: _, [] => false
  | a :: as, b :: bs => if a.toNat < b.toNat then true else if b.toNat < a.toNat then false else textLe as bs

/-- comparison of two components; keys of one listing have the same shape, so the last case does not occur.
(schedulers/base.py:1025) -/
def partLe : Part → Part → Bool
  | .flag a, .flag b => !a || b
  | .time a, .time b => decide (a ≤ b)
  | .text a, .text b => textLe a b
  | .flag _, _ => true
  | .time _, .text _ => true
  | _, _ => false

/-- comparison of tuples.  (schedulers/base.py:1025) -/
def keyLe : List Part → List Part → Bool
  | [], _ => true
  | _ :: _, [] => false
  | a :: as, b :: bs => if partLe a b then (if partLe b a then keyLe as bs else true) else false

/-- the `sort_by` argument.  (schedulers/base.py:995-1023) -/
inductive SortBy where
  | id | name | nextRunTime | scheduleState | executor | store | trigger
  deriving DecidableEq, Repr

/-- the keys of the dictionary `sorters` (base.py:1000-1023); `none`: `ValueError` -/
def SortBy.parse : String → Option SortBy
  | "id" => some .id
  | "name" => some .name
  | "next_run_time" => some .nextRunTime
  | "schedule_state" => some .scheduleState
  | "executor" => some .executor
  | "store" => some .store
  | "trigger" => some .trigger
  | _ => none

/-- `info.next_run_time is None, info.next_run_time or datetime.max` (base.py:1004-1005); `0` stands for
`datetime.max`, which is compared with itself only -/
def timeKey (n : Option Int) : List Part := [.flag n.isNone, .time (n.getD 0)]

/-- `sorters` (base.py:1000-1023); `info.trigger_alias or info.trigger_name or ""` in the last -/
def sortKey (S : Str) : SortBy → Info ρ → List Part
  | .id, i => [.text (S.lower (orEmpty i.id))]
  | .name, i => [.text (S.lower (orEmpty i.name)), .text (S.lower (orEmpty i.id))]
  | .nextRunTime, i => timeKey i.nextRun ++ [.text (S.lower (orEmpty i.name)), .text (S.lower (orEmpty i.id))]
  | .scheduleState, i => .text i.state.value :: timeKey i.nextRun ++ [.text (S.lower (orEmpty i.id))]
  | .executor, i => [.text (S.lower (orEmpty i.executor)), .text (S.lower (orEmpty i.id))]
  | .store, i => [.text (S.lower (orEmpty i.store)), .text (S.lower (orEmpty i.id))]
  | .trigger, i =>
    [.text (S.lower (if orEmpty i.triggerAlias = [] then orEmpty i.triggerName else orEmpty i.triggerAlias)),
      .text (S.lower (orEmpty i.id))]

/-- `sorted(infos, key=key, reverse=descending)` (base.py:1032): stable in both directions -/
def sortInfos (S : Str) (by' : SortBy) (descending : Bool) (l : List (Info ρ)) : List (Info ρ) :=
  sortBy (fun a b => if descending then keyLe (sortKey S by' b) (sortKey S by' a)
    else keyLe (sortKey S by' a) (sortKey S by' b)) l

/-- The arguments of `get_task_infos` other than `store`.  (schedulers/base.py:922-932) -/
structure Query where
  state : StateArg
  executor : Option Text
  trigger : Option Text
  q : Option Text
  sortBy : String
  descending : Bool

/-- `get_task_infos` (base.py:922-1032) applied to the snapshots of `get_tasks(store)`; `none`: `ValueError`. -/
def getTaskInfos (S : Str) (qy : Query) (infos : List (Info ρ)) : Option (List (Info ρ)) :=
  match resolveState S qy.state with
  | none => none
  | some st =>
    let l := filterQuery S qy.q (filterTrigger S qy.trigger (filterExecutor qy.executor (filterState st infos)))
    match SortBy.parse qy.sortBy with
    | none => none
    | some k => some (sortInfos S k qy.descending l)

end Listing
end Asyncz
