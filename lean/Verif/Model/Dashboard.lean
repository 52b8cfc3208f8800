import Verif.Model.Listing
import Verif.Model.Dict
/-!
# Model of the dashboard's in-memory buffers

`contrib/dashboard/events.py`, `contrib/dashboard/audit.py` and `contrib/dashboard/logs/storage.py`.
Instants are `Int` (microseconds), texts are `List Char`; `str.lower`, `str.upper` and `str.strip`
are parameters.
-/
namespace Asyncz
namespace Dash
open Listing (Text isIn orEmpty)

/-- `str.lower`, `str.upper`, `str.strip`; the Unicode tables are not modelled.
(/repo/asyncz/contrib/dashboard/logs/storage.py:188-189) -/
structure Str where
  lower : Text → Text
  upper : Text → Text
  strip : Text → Text

/-- Truth value of an optional string.  (/repo/asyncz/contrib/dashboard/logs/storage.py:196) -/
def truthy : Option Text → Bool
  | some (_ :: _) => true
  | _ => false

/-- `deque(maxlen=m).append(x)`: at the right end, dropping from the left when full.
(Library; used at /repo/asyncz/contrib/dashboard/events.py:98,108 and logs/storage.py:93,157) -/
def dequeAppend {α : Type} (m : Nat) (l : List α) (x : α) : List α :=
  if m = 0 then [] else if l.length < m then l ++ [x] else l.drop (l.length + 1 - m) ++ [x]

/-- The loop common to the four `query` methods: `out.append(record)`, then stop as soon as
`len(out) >= limit`.  (/repo/asyncz/contrib/dashboard/events.py:126-153, audit.py:90-114,
history.py:115-142, logs/storage.py:190-220) -/
def scan {α : Type} (limit : Int) (p : α → Bool) : List α → List α → List α
  | out, [] => out
  | out, x :: xs =>
    if p x then
      if ((out ++ [x]).length : Int) ≥ limit then out ++ [x] else scan limit p (out ++ [x]) xs
    else scan limit p out xs

/-- `" ".join(value or "" for value in (...))`.
(/repo/asyncz/contrib/dashboard/events.py:135-146, audit.py:97-107, history.py:124-135) -/
def joinSpace : List (Option Text) → Text
  | [] => []
  | [x] => orEmpty x
  | x :: y :: l => orEmpty x ++ ' ' :: joinSpace (y :: l)

/-! ## Scheduler events -/

/-- `SchedulerEventRecord`; `detailsText` stands for `_details_text(record.details)`.
(/repo/asyncz/contrib/dashboard/events.py:69-80,145) -/
structure EventRec where
  eventId : Text
  code : Nat
  name : Text
  category : Text
  observedAt : Int
  alias : Option Text
  taskId : Option Text
  store : Option Text
  identity : Option Text
  detailsText : Text
  deriving DecidableEq, Repr

/-- The arguments of the event query.  (/repo/asyncz/contrib/dashboard/events.py:111-119) -/
structure EventQuery where
  category : Option Text
  name : Option Text
  taskId : Option Text
  q : Option Text
  limit : Int

/-- The four `continue` tests of the loop: the record is kept if none applies.
(/repo/asyncz/contrib/dashboard/events.py:120-122,128-149) -/
def eventKeep (S : Str) (a : EventQuery) (r : EventRec) : Bool :=
  let category := S.lower (S.strip (orEmpty a.category))
  let name := S.lower (S.strip (orEmpty a.name))
  let needle := S.lower (S.strip (orEmpty a.q))
  !(category ≠ [] && r.category ≠ category) &&
  !(name ≠ [] && r.name ≠ name) &&
  !(truthy a.taskId && r.taskId ≠ a.taskId) &&
  !(needle ≠ [] && !isIn needle (S.lower (joinSpace
      [some r.name, some r.category, r.alias, r.taskId, r.store, r.identity, some r.eventId,
        some r.detailsText])))

/-- `MemorySchedulerEventStorage.append` on the deque.
(/repo/asyncz/contrib/dashboard/events.py:105-109) -/
def eventAppend (m : Nat) (buf : List EventRec) (r : EventRec) : List EventRec := dequeAppend m buf r

/-- `MemorySchedulerEventStorage.query`.  (/repo/asyncz/contrib/dashboard/events.py:111-153) -/
def eventQuery (S : Str) (buf : List EventRec) (a : EventQuery) : List EventRec :=
  scan a.limit (eventKeep S a) [] buf.reverse

/-! ## Audit trail -/

/-- `AuditRecord` (without `details`, which no query reads).
(/repo/asyncz/contrib/dashboard/audit.py:11-21) -/
structure AuditRec where
  eventId : Text
  action : Text
  status : Text
  targetType : Text
  targetId : Option Text
  message : Option Text
  actor : Text
  createdAt : Int
  deriving DecidableEq, Repr

/-- `_records` and `_order`.  (/repo/asyncz/contrib/dashboard/audit.py:37-41) -/
structure Audit where
  records : Dict Text AuditRec
  order : List Text
  deriving DecidableEq, Repr

/-- `MemoryAuditTrailStorage()`.  (/repo/asyncz/contrib/dashboard/audit.py:37-41) -/
def Audit.empty : Audit := ⟨[], []⟩

/-- The `while` loop of `_trim`; `maxlen` is a natural number (a negative one makes `popleft` raise).
(/repo/asyncz/contrib/dashboard/audit.py:126-129) -/
def auditTrim (m : Nat) (records : Dict Text AuditRec) : List Text → Audit
  | [] => ⟨records, []⟩
  | i :: order =>
    if (i :: order).length > m then auditTrim m (records.erase i) order else ⟨records, i :: order⟩

/-- `append`, the record (with its fresh event id) given.
(/repo/asyncz/contrib/dashboard/audit.py:59-73) -/
def auditAppend (m : Nat) (s : Audit) (r : AuditRec) : Audit :=
  auditTrim m (s.records.set r.eventId r) (s.order ++ [r.eventId])

/-- `[self._records[event_id] for event_id in reversed(self._order)]`; `none` if a lookup raises.
(/repo/asyncz/contrib/dashboard/audit.py:88) -/
def auditNewestFirst (s : Audit) : Option (List AuditRec) := s.order.reverse.mapM s.records.get?

/-- The arguments of the audit query.  (/repo/asyncz/contrib/dashboard/audit.py:75-82) -/
structure AuditQuery where
  action : Option Text
  status : Option Text
  q : Option Text
  limit : Int

/-- The three `continue` tests of the loop.  (/repo/asyncz/contrib/dashboard/audit.py:83-85,92-110) -/
def auditKeep (S : Str) (a : AuditQuery) (r : AuditRec) : Bool :=
  let action := S.lower (S.strip (orEmpty a.action))
  let status := S.lower (S.strip (orEmpty a.status))
  let needle := S.lower (S.strip (orEmpty a.q))
  !(action ≠ [] && r.action ≠ action) &&
  !(status ≠ [] && r.status ≠ status) &&
  !(needle ≠ [] && !isIn needle (S.lower (joinSpace
      [some r.eventId, some r.action, some r.status, some r.targetType, r.targetId, r.message,
        some r.actor])))

/-- `MemoryAuditTrailStorage.query`; `none` if it raises `KeyError`.
(/repo/asyncz/contrib/dashboard/audit.py:75-114) -/
def auditQuery (S : Str) (s : Audit) (a : AuditQuery) : Option (List AuditRec) :=
  (auditNewestFirst s).map fun l => scan a.limit (auditKeep S a) [] l

/-! ## Logs -/

/-- `LogEntry`; of `extra` only `str(extra.get("run_id"))` is read (`none`: no or empty extras).
(/repo/asyncz/contrib/dashboard/logs/storage.py:10-28,199) -/
structure LogEntry where
  ts : Int
  level : Text
  message : Text
  logger : Text
  taskId : Option Text
  extraRunId : Option Text
  deriving DecidableEq, Repr

/-- The arguments of the log query.  (/repo/asyncz/contrib/dashboard/logs/storage.py:159-169) -/
structure LogQuery where
  taskId : Option Text
  runId : Option Text
  level : Option Text
  q : Option Text
  since : Option Int
  until_ : Option Int
  limit : Int

/-- The `continue` tests of the loop.
(/repo/asyncz/contrib/dashboard/logs/storage.py:188-189,195-211) -/
def logKeep (S : Str) (a : LogQuery) (e : LogEntry) : Bool :=
  let level : Option Text := if truthy a.level then some (S.upper (orEmpty a.level)) else none
  let needle := S.strip (S.lower (orEmpty a.q))
  !(truthy a.taskId && e.taskId ≠ a.taskId) &&
  !(truthy a.runId && (e.extraRunId.isNone || e.extraRunId ≠ a.runId)) &&
  !(match a.since with | some t => decide (e.ts < t) | none => false) &&
  !(match a.until_ with | some t => decide (e.ts > t) | none => false) &&
  !(truthy level && some (S.upper e.level) ≠ level) &&
  !(needle ≠ [] && !isIn needle (S.lower e.message))

/-- `MemoryLogStorage.append` of an entry already coerced.
(/repo/asyncz/contrib/dashboard/logs/storage.py:148-157) -/
def logAppend (m : Nat) (buf : List LogEntry) (e : LogEntry) : List LogEntry := dequeAppend m buf e

/-- `MemoryLogStorage.query`.  (/repo/asyncz/contrib/dashboard/logs/storage.py:159-220) -/
def logQuery (S : Str) (buf : List LogEntry) (a : LogQuery) : List LogEntry :=
  scan a.limit (logKeep S a) [] buf.reverse

/-- `entry.get("ts")`: missing or not a datetime, a naive or an aware datetime (as instants when the
naive one is read as UTC).  (/repo/asyncz/contrib/dashboard/logs/storage.py:120-124) -/
inductive RawTs where
  | absent
  | naive (asUtc : Int)
  | aware (instant : Int)
  deriving DecidableEq, Repr

/-- What `append` may be given: an entry, a dictionary (fields already passed through `str`, `none`
if missing; `extraIsDict`'s run id only if `extra` is a dictionary), or something else.
(/repo/asyncz/contrib/dashboard/logs/storage.py:97-146) -/
inductive RawEntry where
  | entry (e : LogEntry)
  | dict (ts : RawTs) (level message logger : Option Text) (taskId : Option Text)
      (extraRunId : Option Text)
  | other
  deriving DecidableEq, Repr

/-- `_coerce_entry`; `none` is the `TypeError`.
(/repo/asyncz/contrib/dashboard/logs/storage.py:97-146) -/
def coerceEntry (now : Int) : RawEntry → Option LogEntry
  | .entry e => some e
  | .other => none
  | .dict ts level message logger taskId extra =>
    let ts := match ts with
      | .absent => now
      | .naive t => t
      | .aware t => t
    some ⟨ts, level.getD "INFO".toList, message.getD [], logger.getD [], taskId, extra⟩

end Dash
end Asyncz
