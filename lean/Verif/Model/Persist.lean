import Verif.Model.Dict
import Verif.Spec.Store
import Verif.Model.Sort
/-!
# Models of the persistent stores

`FileStore`, `RedisStore`, `SQLAlchemyStore`, `MongoDBStore`
(/repo/asyncz/stores/{file,redis,sqlalchemy,mongo}.py).  The backends themselves (filesystem
directory, Redis hash/sorted set, SQL table, MongoDB collection) are modelled by dictionaries; one
backend command is atomic.
-/
namespace Asyncz
namespace Persist
variable {β : Type}

/-- Contents of files, hash fields and columns (stores/file.py:147, stores/redis.py:117). -/
abbrev Bytes := List UInt8

/-- Serialisation as used by every persistent store:
`enc` is `conditional_encrypt(pickle.dumps(serialize_task_state(task)))` (stores/base.py:110-139;
`none` = it raises, e.g. an unpicklable argument), `dec` is `rebuild_task` (file.py:85-91,
redis.py:60-66, sqlalchemy.py:74-80, mongo.py:68-74; `none` = it raises).
Assumed of pickle/AES-CCM: what was written is read back, and a strict prefix of it is not readable
(pickle needs its final STOP opcode, AES-CCM authenticates). -/
structure Codec (β : Type) where
  enc : Task β → Option Bytes
  dec : Bytes → Option (Task β)
  dec_enc : ∀ t b, enc t = some b → dec b = some t
  dec_prefix : ∀ t b n, enc t = some b → n < b.length → dec (b.take n) = none

/-- Result of a persistent-store call: a normal `Res`, the `RuntimeError` of
`FileStore.check_task_id`, or an error raised while serialising.  (stores/file.py:51-58,138-171) -/
inductive Out where
  | res (r : Res)
  | badId
  | encodeError
  deriving DecidableEq

/-! ## FileStore -/
namespace File

/-- `FileStore.forbidden_characters` (file.py:33) -/
def forbidden : List Char := ['/', '\\', '\x00', ':']

/-- `FileStore.check_task_id` (file.py:51-58); `true` = accepted.  `None` ids are not modelled. -/
def checkTaskId (id : String) : Bool :=
  !(id.toList.head? == some '.') && id.toList.all fun c => !(forbidden.contains c)

/-- The directory: file name → content.  (stores/file.py:35-49) -/
abbrev Dir := Dict String Bytes

/-- `f"{task_id}{self.suffix}"` (file.py:76, 140, 153, 167) -/
def fileName (suffix id : String) : String := id ++ suffix

/-- `FileStore.lookup_task` (file.py:74-83): an unreadable file is deleted. -/
def lookupTask (c : Codec β) (suffix : String) (d : Dir) (id : String) : Dir × Option (Option (Task β)) :=
  if checkTaskId id then
    match d.get? (fileName suffix id) with
    | none => (d, some none)
    | some b => match c.dec b with
      | some t => (d, some (some t))
      | none => (d.erase (fileName suffix id), some none)
  else (d, none)

/-- `FileStore.add_task` (file.py:138-149).  Opening with mode `x` creates the empty file before
the task is serialised. -/
def addTask (c : Codec β) (suffix : String) (d : Dir) (t : Task β) : Dir × Out :=
  if checkTaskId t.id then
    match d.get? (fileName suffix t.id) with
    | some _ => (d, .res (.conflict t.id))
    | none => match c.enc t with
      | some b => (d.set (fileName suffix t.id) b, .res .ok)
      | none => (d.set (fileName suffix t.id) [], .encodeError)
  else (d, .badId)

/-- `FileStore.update_task` (file.py:151-163).  The file is truncated before the task is
serialised. -/
def updateTask (c : Codec β) (suffix : String) (d : Dir) (t : Task β) : Dir × Out :=
  if checkTaskId t.id then
    match d.get? (fileName suffix t.id) with
    | none => (d, .res (.notFound t.id))
    | some _ => match c.enc t with
      | some b => (d.set (fileName suffix t.id) b, .res .ok)
      | none => (d.set (fileName suffix t.id) [], .encodeError)
  else (d, .badId)

/-- `FileStore.delete_task` (file.py:165-171) -/
def deleteTask (suffix : String) (d : Dir) (id : String) : Dir × Out :=
  if checkTaskId id then
    match d.get? (fileName suffix id) with
    | none => (d, .res (.notFound id))
    | some _ => (d.erase (fileName suffix id), .res .ok)
  else (d, .badId)

/-- name ends with the suffix (file.py:104, 174) -/
def hasSuffix (suffix name : String) : Bool := suffix.toList.isSuffixOf name.toList

/-- `FileStore.remove_all_tasks` (file.py:173-175) -/
def removeAllTasks (suffix : String) (d : Dir) : Dir × Out :=
  (d.filter fun p => !hasSuffix suffix p.1, .res .ok)

/-- The comparison of the sort in `get_tasks` (file.py:113-124), without the final `st_ctime`
tie-break (ties keep scan order here). -/
def leTime (a b : Task β) : Bool :=
  match a.nrt, b.nrt with
  | some x, some y => x ≤ y
  | _, none => true
  | none, some _ => false

/-- `FileStore.get_tasks` / `get_all_tasks` (file.py:100-124, 135-136): the readable files, sorted.
(That unreadable ones are unlinked on the way does not change the result.) -/
def getAllTasks (c : Codec β) (suffix : String) (d : Dir) : List (Task β) :=
  sortBy leTime (d.filterMap fun p => if hasSuffix suffix p.1 then c.dec p.2 else none)

/-- `FileStore.get_due_tasks` (file.py:93-98) -/
def getDueTasks (c : Codec β) (suffix : String) (d : Dir) (now : Int) : List (Task β) :=
  (getAllTasks c suffix d).filter fun t => match t.nrt with | none => false | some r => r ≤ now

/-- The loop of `get_next_run_time` (file.py:127-133). -/
def nextLoop (acc : Option Int) : List (Task β) → Option Int
  | [] => acc
  | t :: ts => match t.nrt with
    | none => acc
    | some r => match acc with
      | none => nextLoop (some r) ts
      | some a => if a ≥ r then nextLoop (some r) ts else nextLoop (some a) ts

/-- `FileStore.get_next_run_time` (file.py:126-133) -/
def getNextRunTime (c : Codec β) (suffix : String) (d : Dir) : Option Int :=
  nextLoop none (getAllTasks c suffix d)

/-- one store call.  (stores/file.py:138-175) -/
def step (c : Codec β) (suffix : String) (d : Dir) : StoreOp β → Dir × Out
  | .add t => addTask c suffix d t
  | .update t => updateTask c suffix d t
  | .delete id => deleteTask suffix d id
  | .clear => removeAllTasks suffix d

/-- a history of calls.  (stores/file.py:138-175) -/
def run (c : Codec β) (suffix : String) (d : Dir) : List (StoreOp β) → Dir × List Out
  | [] => (d, [])
  | op :: ops =>
    let r := step c suffix d op
    let rest := run c suffix r.1 ops
    (rest.1, r.2 :: rest.2)

/-! ### Crash points -/

/-- The directory contents that can be on disk if the process dies (or serialisation raises, or the
disk fills up) during `update_task` (file.py:155-161): untouched, truncated, or with any prefix of
the new content written. -/
inductive UpdateCrash (c : Codec β) (suffix : String) (d : Dir) (t : Task β) : Dir → Prop
  | before : UpdateCrash c suffix d t d
  | truncated (old) (h : checkTaskId t.id) (h' : d.get? (fileName suffix t.id) = some old) :
      UpdateCrash c suffix d t (d.set (fileName suffix t.id) [])
  | written (old b n) (h : checkTaskId t.id) (h' : d.get? (fileName suffix t.id) = some old)
      (he : c.enc t = some b) :
      UpdateCrash c suffix d t (d.set (fileName suffix t.id) (b.take n))

/-- Same for `add_task` (file.py:142-147): not yet created, created empty, or any prefix written. -/
inductive AddCrash (c : Codec β) (suffix : String) (d : Dir) (t : Task β) : Dir → Prop
  | before : AddCrash c suffix d t d
  | created (h : checkTaskId t.id) (h' : d.get? (fileName suffix t.id) = none) :
      AddCrash c suffix d t (d.set (fileName suffix t.id) [])
  | written (b n) (h : checkTaskId t.id) (h' : d.get? (fileName suffix t.id) = none)
      (he : c.enc t = some b) :
      AddCrash c suffix d t (d.set (fileName suffix t.id) (b.take n))

end File

/-! ## RedisStore -/
namespace Redis

/-- The two Redis keys: the hash of states and the sorted set of run times (redis.py:52-53). -/
structure DB where
  hash : Dict String Bytes
  zset : Dict String Int

/-- The empty database (stores/redis.py:35-54). -/
def init : DB := ⟨[], []⟩

/-- `RedisStore.lookup_task` (redis.py:56-58).  (`dec` failing raises here; both are `none`.) -/
def lookupTask (c : Codec β) (db : DB) (id : String) : Option (Task β) :=
  (db.hash.get? id).bind c.dec

/-- `RedisStore.add_task` (redis.py:109-129): nothing is sent before the pipeline executes. -/
def addTask (c : Codec β) (db : DB) (t : Task β) : DB × Out :=
  match db.hash.get? t.id with
  | some _ => (db, .res (.conflict t.id))
  | none => match c.enc t with
    | none => (db, .encodeError)
    | some b => (⟨db.hash.set t.id b,
        match t.nrt with | some r => db.zset.set t.id r | none => db.zset⟩, .res .ok)

/-- `RedisStore.update_task` (redis.py:131-152) -/
def updateTask (c : Codec β) (db : DB) (t : Task β) : DB × Out :=
  match db.hash.get? t.id with
  | none => (db, .res (.notFound t.id))
  | some _ => match c.enc t with
    | none => (db, .encodeError)
    | some b => (⟨db.hash.set t.id b,
        match t.nrt with | some r => db.zset.set t.id r | none => db.zset.erase t.id⟩, .res .ok)

/-- `RedisStore.delete_task` (redis.py:154-161) -/
def deleteTask (db : DB) (id : String) : DB × Out :=
  match db.hash.get? id with
  | none => (db, .res (.notFound id))
  | some _ => (⟨db.hash.erase id, db.zset.erase id⟩, .res .ok)

/-- `RedisStore.remove_all_tasks` (redis.py:163-167) -/
def removeAllTasks (_ : DB) : DB × Out := (init, .res .ok)

/-- Redis orders a sorted set by score, then by member.  (stores/redis.py:70,98) -/
def leScore (a b : String × Int) : Bool := a.2 < b.2 || (a.2 == b.2 && decide (a.1 ≤ b.1))

/-- `ZRANGEBYSCORE key min max`.  (stores/redis.py:70) -/
def zrangebyscore (z : Dict String Int) (min max : Int) : List String :=
  (sortBy leScore (z.filter fun p => min ≤ p.2 && p.2 ≤ max)).map Prod.fst

/-- `RedisStore.get_due_tasks` (redis.py:68-74): scores from 0 to now. -/
def getDueTasks (c : Codec β) (db : DB) (now : Int) : List (Task β) :=
  (zrangebyscore db.zset 0 now).filterMap fun id => lookupTask c db id

/-- `RedisStore.get_next_run_time` (redis.py:97-101): first element of the sorted set. -/
def getNextRunTime (db : DB) : Option Int :=
  ((sortBy leScore db.zset).head?).map Prod.snd

/-- `RedisStore.get_all_tasks` (redis.py:103-107).  `datetime(9999,12,31)` as the key of paused
tasks is modelled as "after every run time". -/
def getAllTasks (c : Codec β) (db : DB) : List (Task β) :=
  sortBy File.leTime (db.hash.filterMap fun p => c.dec p.2)

/-- One store call (stores/redis.py:109-167). -/
def step (c : Codec β) (db : DB) : StoreOp β → DB × Out
  | .add t => addTask c db t
  | .update t => updateTask c db t
  | .delete id => deleteTask db id
  | .clear => removeAllTasks db

/-- A history of calls (stores/redis.py:109-167). -/
def run (c : Codec β) (db : DB) : List (StoreOp β) → DB × List Out
  | [] => (db, [])
  | op :: ops =>
    let r := step c db op
    let rest := run c r.1 ops
    (rest.1, r.2 :: rest.2)

end Redis

/-! ## SQLAlchemyStore and MongoDBStore

Both keep one row/document per id: the run-time column and the serialised state. -/
namespace Rows

/-- a row: (`next_run_time` column, `state` column) (sqlalchemy.py:49-57, mongo.py:116-126) -/
abbrev Table := Dict String (Option Int × Bytes)

/-- `lookup_task` (sqlalchemy.py:70-72, mongo.py:64-66) -/
def lookupTask (c : Codec β) (tb : Table) (id : String) : Option (Task β) :=
  (tb.get? id).bind fun r => c.dec r.2

/-- `add_task` (sqlalchemy.py:128-140, mongo.py:114-128).  `q` is what storing a timestamp in the
column does to it: the identity for MongoDB and SQLite; a server with a real 64-bit integer column
(sqlalchemy.py:55 declares `BigInteger`) rounds it to whole seconds. -/
def addTask (c : Codec β) (q : Int → Int) (tb : Table) (t : Task β) : Table × Out :=
  match c.enc t with
  | none => (tb, .encodeError)
  | some b => match tb.get? t.id with
    | some _ => (tb, .res (.conflict t.id))
    | none => (tb.set t.id (t.nrt.map q, b), .res .ok)

/-- `update_task` (sqlalchemy.py:142-158, mongo.py:130-141) -/
def updateTask (c : Codec β) (q : Int → Int) (tb : Table) (t : Task β) : Table × Out :=
  match c.enc t with
  | none => (tb, .encodeError)
  | some b => match tb.get? t.id with
    | none => (tb, .res (.notFound t.id))
    | some _ => (tb.set t.id (t.nrt.map q, b), .res .ok)

/-- `delete_task` (sqlalchemy.py:160-167, mongo.py:143-146) -/
def deleteTask (tb : Table) (id : String) : Table × Out :=
  match tb.get? id with
  | none => (tb, .res (.notFound id))
  | some _ => (tb.erase id, .res .ok)

/-- `remove_all_tasks` (sqlalchemy.py:169-171, mongo.py:148-149) -/
def removeAllTasks (_ : Table) : Table × Out := ([], .res .ok)

/-- One store call (stores/sqlalchemy.py:128-171, stores/mongo.py:114-149). -/
def step (c : Codec β) (q : Int → Int) (tb : Table) : StoreOp β → Table × Out
  | .add t => addTask c q tb t
  | .update t => updateTask c q tb t
  | .delete id => deleteTask tb id
  | .clear => removeAllTasks tb

/-- A history of calls (stores/sqlalchemy.py:128-171, stores/mongo.py:114-149). -/
def run (c : Codec β) (q : Int → Int) (tb : Table) : List (StoreOp β) → Table × List Out
  | [] => (tb, [])
  | op :: ops =>
    let r := step c q tb op
    let rest := run c q r.1 ops
    (rest.1, r.2 :: rest.2)

/-- ascending, NULLs last (sqlalchemy.py:89 `.asc().nullslast()`) -/
def leNullsLast (a b : Option Int) : Bool :=
  match a, b with
  | some x, some y => x ≤ y
  | _, none => true
  | none, some _ => false

/-- ascending, null first (MongoDB sort order, mongo.py:85) -/
def leNullsFirst (a b : Option Int) : Bool :=
  match a, b with
  | some x, some y => x ≤ y
  | none, _ => true
  | some _, none => false

/-- `column <= now`; a NULL column is not selected.  (stores/sqlalchemy.py:82-84, stores/mongo.py:76-78) -/
def dueRow (now : Int) (r : String × Option Int × Bytes) : Bool :=
  match r.2.1 with | none => false | some x => x ≤ now

/-- rows → tasks, unreadable rows dropped (sqlalchemy.py:97-110, mongo.py:84-97) -/
def rebuild (c : Codec β) (rows : List (String × Option Int × Bytes)) : List (Task β) :=
  rows.filterMap fun r => c.dec r.2.2

/-- `SQLAlchemyStore.get_due_tasks` (sqlalchemy.py:82-111).  Ties: the database may order them
anyhow; here table order. -/
def sqlDue (c : Codec β) (tb : Table) (now : Int) : List (Task β) :=
  rebuild c (sortBy (fun a b => leNullsLast a.2.1 b.2.1) (tb.filter (dueRow now)))

/-- `SQLAlchemyStore.get_all_tasks` (sqlalchemy.py:125-126) -/
def sqlAll (c : Codec β) (tb : Table) : List (Task β) :=
  rebuild c (sortBy (fun a b => leNullsLast a.2.1 b.2.1) tb)

/-- `get_next_run_time` (sqlalchemy.py:113-123, mongo.py:101-107): first non-NULL in ascending
order. -/
def nextRunTime (tb : Table) : Option Int :=
  (sortBy (fun a b => decide (a ≤ b)) (tb.filterMap fun r => r.2.1)).head?

/-- `BaseStore.fix_paused_tasks` (stores/base.py:178-192): everything before the first scheduled
task is moved to the end. -/
def fixPaused (tasks : List (Task β)) : List (Task β) :=
  if tasks.any (fun t => t.nrt.isSome) then
    tasks.dropWhile (fun t => t.nrt.isNone) ++ tasks.takeWhile (fun t => t.nrt.isNone)
  else tasks

/-- `MongoDBStore.get_all_tasks` (mongo.py:109-112) -/
def mongoAll (c : Codec β) (tb : Table) : List (Task β) :=
  fixPaused (rebuild c (sortBy (fun a b => leNullsFirst a.2.1 b.2.1) tb))

/-- `MongoDBStore.get_due_tasks` (mongo.py:76-99) -/
def mongoDue (c : Codec β) (tb : Table) (now : Int) : List (Task β) :=
  rebuild c (sortBy (fun a b => leNullsFirst a.2.1 b.2.1) (tb.filter (dueRow now)))

end Rows
end Persist
end Asyncz
